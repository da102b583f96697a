import Verif.Proofs.Env
import Mathlib.Data.List.Induction
set_option autoImplicit false
/-!
# Names in nested functions: C33, C34, C76

A history is the sequence of blocks, functions, declarations and uses of the text so far (`NOp`).  `Names` (in `Verif.Spec.Names`) says what the
names mean.  `compileNames` is what the compiler's tables are after the history.
-/
namespace Yasl

/-- What an emitted instruction refers to when it runs: a variable (given by the number of functions around it and its slot in the frame of its
function), a global, or nothing. -/
inductive Meaning where
  | variable (functions slot : Nat)
  | global
  | undeclared
  | constant
  | nothing
deriving DecidableEq

/-- The meaning of what was emitted in the innermost function. -/
def NState.denote (s : NState) : Ref → Meaning
  | .slot i => .variable s.params.length i.toNat
  | .upval i => match upvalTarget s.params i with
    | some (d, k) => .variable d k
    | none => .nothing
  | .global => .global
  | .undeclared => .undeclared
  | .constErr => .constant
  | .assertion => .nothing

/-- The compiler's tables after a history. -/
def compileNames (ops : List NOp) : NState := ops.foldl NState.op NState.initial

/-- The meaning of the names after a history. -/
def namesAfter (ops : List NOp) : Names := ops.foldl Names.op Names.initial

/-- The text so far was accepted by the compiler and is well nested, without two variables of the same name in a block. -/
def Accepted (ops : List NOp) : Prop := Names.initial.allowsAll ops ∧ (compileNames ops).ok = true ∧ ops.length < 2 ^ 62

/-- What a use of a name means. -/
def Names.useOf (n : Names) (x : Name) : Meaning :=
  match n.vis.lookup x with
  | some (_, d, k) => .variable d k
  | none => if (n.globals x).isSome then .global else .undeclared

/-- What an assignment to a name means. -/
def Names.assignmentOf (n : Names) (x : Name) : Meaning :=
  match n.vis.lookup x with
  | some (v, d, k) => if v.const_ then .constant else .variable d k
  | none => match n.globals x with
    | some c => if c then .constant else .global
    | none => .undeclared

theorem Accepted.inv {ops : List NOp} (h : Accepted ops) : NInv (compileNames ops) (namesAfter ops) :=
  (nrun_spec initial_inv h.1 h.2.1 (by simpa [NState.initial] using h.2.2)).1

theorem RefersTo.denote {s : NState} {n : Names} (h : RepP s.stack s.params n.vis) {r : Ref} {d k : Nat} (hr : RefersTo s n r d k) (hk : k < 2 ^ 64) :
    s.denote r = .variable d k := by
  have hl := RepP.length h
  unfold RefersTo at hr
  split at hr
  · rename_i hd
    subst hr
    simp only [NState.denote, BitVec.toNat_ofNat, Nat.mod_eq_of_lt hk]
    congr 1; omega
  · obtain ⟨i, rfl, ht⟩ := hr
    simp [NState.denote, ht]

theorem RepP.slot_lt {stack : List Scope} {x : Name} : ∀ {ps : List FnEnv} {vis : Visible}, RepP stack ps vis → ∀ {v : SVar} {d k : Nat},
    vis.lookup x = some (v, d, k) → k < 255
  | [], [f], h, v, d, k, hl => by
    simp only [Visible.lookup] at hl
    split at hl
    · rename_i hf; simp at hl; obtain ⟨_, _, rfl⟩ := hl
      have := (findVar_lt hf).1; have := h.2.2; omega
    · simp at hl
  | e :: ps, f :: fs, h, v, d, k, hl => by
    simp only [Visible.lookup] at hl
    split at hl
    · rename_i hf; simp at hl; obtain ⟨_, _, rfl⟩ := hl
      have := (findVar_lt hf).1; have := h.1.2.2; omega
    · exact RepP.slot_lt h.2.2 hl
  | [], [], h, _, _, _, _ => by simp [RepP] at h
  | [], _ :: _ :: _, h, _, _, _, _ => by simp [RepP] at h
  | _ :: _, [], h, _, _, _, _ => by simp [RepP] at h

/-- C33: after every accepted history, a use of a name is compiled to an instruction that refers to the most recent declaration in the innermost
enclosing scope — through any number of functions in between — or to the global, or is rejected as undeclared. -/
theorem C33_innermost (ops : List NOp) (h : Accepted ops) (x : Name) :
    ((compileNames ops).loadVar x).2.denote ((compileNames ops).loadVar x).1 = (namesAfter ops).useOf x := by
  have hi := h.inv
  obtain ⟨h1, h2, h3⟩ := nloadVar_spec hi x
  unfold Names.useOf
  cases hl : (namesAfter ops).vis.lookup x with
  | none =>
    rw [hl] at h3
    simp only at h3 ⊢
    rw [h3]
    split <;> rfl
  | some q =>
    obtain ⟨v, d, k⟩ := q
    rw [hl] at h3
    have := RepP.slot_lt h1.rep hl
    exact h3.1.denote h1.rep (by omega)

/-- C33: the index of an upvalue keeps its meaning until the end of the function, when the list of what to capture is emitted: whatever is
compiled after the use, as long as the function is not left. -/
theorem C33_upvalue_stays (ops more : List NOp) (x : Name) (h : Accepted (ops ++ .load x :: more)) (i : Int)
    (hu : ((compileNames ops).loadVar x).1 = .upval i)
    (hin : (namesAfter ops).staysInside (compileNames ops).params.length more)
    (hsame : (compileNames (ops ++ .load x :: more)).params.length = (compileNames ops).params.length) :
    (compileNames (ops ++ .load x :: more)).denote (.upval i) = (namesAfter ops).useOf x := by
  obtain ⟨ha, hok, hlen⟩ := h
  have split_all : ∀ (a b : List NOp) (n : Names), n.allowsAll (a ++ b) → n.allowsAll a ∧ (a.foldl Names.op n).allowsAll b := by
    intro a
    induction a with
    | nil => intro b n h; exact ⟨trivial, h⟩
    | cons o a ih => intro b n h; have := ih b _ h.2; exact ⟨⟨h.1, this.1⟩, this.2⟩
  have hs := split_all ops (.load x :: more) _ ha
  have hok' : (more.foldl NState.op ((compileNames ops).op (.load x))).ok = true := by
    simpa [compileNames] using hok
  have hokl := nrun_ok hok'
  have hok0 : (compileNames ops).ok = true := nop_ok hokl
  have hacc : Accepted ops := ⟨hs.1, hok0, by simp at hlen; omega⟩
  have hi := hacc.inv
  obtain ⟨h1, h2, h3⟩ := nloadVar_spec hi x
  have hg0 : (compileNames ops).globals.length ≤ ops.length := by
    have h0 := (nrun_spec initial_inv hacc.1 hacc.2.1 (by simpa [NState.initial] using hacc.2.2)).2
    have h00 : NState.initial.globals.length = 0 := rfl
    unfold compileNames
    omega
  have hg1 := (nop_spec hi (op := .load x) trivial hokl (by
    simp only [List.length_append, List.length_cons] at hlen
    omega)).2.2
  have hgl : ((compileNames ops).op (.load x)).globals.length + more.length < 2 ^ 62 := by
    simp only [List.length_append, List.length_cons] at hlen
    omega
  have hrun := nrun_spec (ops := more) (s := (compileNames ops).op (.load x)) h1 hs.2.2 hok' hgl
  have hout := nrun_outer (m := (compileNames ops).params.length) (ops := more) (s := (compileNames ops).op (.load x)) h1 hs.2.2 hok' hgl hin
  have hfin : compileNames (ops ++ .load x :: more) = more.foldl NState.op ((compileNames ops).op (.load x)) := by simp [compileNames]
  have hl1 : ((compileNames ops).op (.load x)).params.length = (compileNames ops).params.length :=
    (forall₂_later_length (forall₂_ext_later h2)).symm
  rw [hfin] at hsame ⊢
  have hout' : List.Forall₂ FLater ((compileNames ops).op (.load x)).params (more.foldl NState.op ((compileNames ops).op (.load x))).params := by
    unfold outer at hout
    rwa [hl1, hsame, Nat.sub_self, List.drop_zero, List.drop_zero] at hout
  have hd := C33_innermost ops hacc x
  rw [hu] at hd
  rw [← hd]
  simp only [NState.denote]
  cases ht : upvalTarget ((compileNames ops).loadVar x).2.params i with
  | some t => rw [upvalTarget_later hout' h1.up hrun.1.up ht]
  | none =>
    exfalso
    rw [hu] at h3
    split at h3
    · obtain ⟨hr, _⟩ := h3
      unfold RefersTo at hr
      split at hr
      · simp at hr
      · obtain ⟨j, hj, hjt⟩ := hr
        simp at hj; subst hj
        rw [ht] at hjt; simp at hjt
    · split at h3 <;> simp at h3

/-- C33: two different visible variables of a function have different slots, and all slots fit in a byte. -/
theorem C33_distinct (ops : List NOp) (h : Accepted ops) (x y : Name) (d i j : Nat) (hxy : x ≠ y)
    (hx : ((compileNames ops).loadVar x).2.denote ((compileNames ops).loadVar x).1 = .variable d i)
    (hy : ((compileNames ops).loadVar y).2.denote ((compileNames ops).loadVar y).1 = .variable d j) : i ≠ j ∧ i < 255 ∧ j < 255 := by
  rw [C33_innermost ops h] at hx hy
  unfold Names.useOf at hx hy
  split at hx
  · rename_i v d' k hlx
    split at hy
    · rename_i w d'' k' hly
      simp only [Meaning.variable.injEq] at hx hy
      obtain ⟨rfl, rfl⟩ := hx
      obtain ⟨rfl, rfl⟩ := hy
      refine ⟨?_, RepP.slot_lt h.inv.rep hlx, RepP.slot_lt h.inv.rep hly⟩
      rintro rfl
      exact hxy (lookup_inj hlx hly)
    · split at hy <;> simp at hy
  · split at hx <;> simp at hx

/-- Text in which every block and every function that is entered is also left. -/
inductive Nested : List NOp → Prop
  | nil : Nested []
  | op (o : NOp) (ops : List NOp) : (∀ x c, o ≠ .declare x c ∧ o ≠ .param x c) → o ≠ .enterScope → o ≠ .exitScope → o ≠ .enterFn → o ≠ .exitFn → Nested ops → Nested (o :: ops)
  | declare (x : Name) (c : Bool) (ops : List NOp) : Nested ops → Nested (.declare x c :: ops)
  | param (x : Name) (c : Bool) (ops : List NOp) : Nested ops → Nested (.param x c :: ops)
  | block (inner ops : List NOp) : Nested inner → Nested ops → Nested (.enterScope :: inner ++ .exitScope :: ops)
  | fn (inner ops : List NOp) : Nested inner → Nested ops → Nested (.enterFn :: inner ++ .exitFn :: ops)

/-- Nested text only adds variables to the innermost block. -/
theorem Nested.effect {ops : List NOp} (h : Nested ops) : ∀ (n : Names) (b : List SVar) (bs : List (List SVar)) (fs : Visible), n.vis = (b :: bs) :: fs →
    ∃ added, ops.foldl Names.op n = { n with vis := ((added ++ b) :: bs) :: fs } := by
  induction h with
  | nil => intro n b bs fs hn; exact ⟨[], by simp [← hn]⟩
  | op o ops h1 h2 h3 h4 h5 _ ih =>
    intro n b bs fs hn
    have : n.op o = n := by
      cases o <;> simp_all [Names.op]
    rw [List.foldl_cons, this]
    exact ih n b bs fs hn
  | declare x c ops _ ih =>
    intro n b bs fs hn
    have : n.op (.declare x c) = { n with vis := ((⟨x, c⟩ :: b) :: bs) :: fs } := by simp [Names.op, Names.declare, hn, Visible.declare]
    rw [List.foldl_cons, this]
    obtain ⟨a, ha⟩ := ih { n with vis := ((⟨x, c⟩ :: b) :: bs) :: fs } _ bs fs rfl
    exact ⟨a ++ [⟨x, c⟩], by simp [ha]⟩
  | param x c ops _ ih =>
    intro n b bs fs hn
    have : n.op (.param x c) = { n with vis := ((⟨x, c⟩ :: b) :: bs) :: fs } := by simp [Names.op, Names.declare, hn, Visible.declare]
    rw [List.foldl_cons, this]
    obtain ⟨a, ha⟩ := ih { n with vis := ((⟨x, c⟩ :: b) :: bs) :: fs } _ bs fs rfl
    exact ⟨a ++ [⟨x, c⟩], by simp [ha]⟩
  | block inner ops _ _ ih1 ih2 =>
    intro n b bs fs hn
    obtain ⟨a, ha⟩ := ih1 { n with vis := ([] :: b :: bs) :: fs } [] (b :: bs) fs rfl
    have he : n.op .enterScope = { n with vis := ([] :: b :: bs) :: fs } := by simp [Names.op, hn, Visible.enterBlock]
    obtain ⟨a', ha'⟩ := ih2 n b bs fs hn
    refine ⟨a', ?_⟩
    rw [List.cons_append, List.foldl_cons, he, List.foldl_append, ha, List.foldl_cons]
    rw [← ha']
    congr 1
    simp [Names.op, Visible.exitBlock, ← hn]
  | fn inner ops _ _ ih1 ih2 =>
    intro n b bs fs hn
    obtain ⟨a, ha⟩ := ih1 { n with vis := [[]] :: n.vis } [] [] n.vis rfl
    have he : n.op .enterFn = { n with vis := [[]] :: n.vis } := by simp [Names.op]
    obtain ⟨a', ha'⟩ := ih2 n b bs fs hn
    refine ⟨a', ?_⟩
    rw [List.cons_append, List.foldl_cons, he, List.foldl_append, ha, List.foldl_cons]
    rw [← ha']
    congr 1

/-- C33: leaving a block restores the meaning of every name, whatever was declared, captured or shadowed in it. -/
theorem C33_leaving_restores (ops inner : List NOp) (hn : Nested inner) (h : Accepted ops) (h' : Accepted (ops ++ .enterScope :: inner ++ [.exitScope]))
    (x : Name) :
    let after := compileNames (ops ++ .enterScope :: inner ++ [.exitScope])
    (after.loadVar x).2.denote (after.loadVar x).1 = ((compileNames ops).loadVar x).2.denote ((compileNames ops).loadVar x).1 := by
  intro after
  rw [C33_innermost ops h x]
  show ((compileNames _).loadVar x).2.denote _ = _
  rw [C33_innermost _ h' x]
  have hl := RepP.length h.inv.rep
  match hvis : (namesAfter ops).vis with
  | [] => rw [hvis] at hl; simp at hl
  | f :: fs =>
    have he : (namesAfter ops).op .enterScope = { (namesAfter ops) with vis := ([] :: f) :: fs } := by simp [Names.op, hvis, Visible.enterBlock]
    obtain ⟨a, ha⟩ := hn.effect { (namesAfter ops) with vis := ([] :: f) :: fs } [] f fs rfl
    have : namesAfter (ops ++ .enterScope :: inner ++ [.exitScope]) = namesAfter ops := by
      show List.foldl Names.op Names.initial _ = _
      rw [List.append_assoc, List.foldl_append, List.cons_append, List.foldl_cons]
      show List.foldl Names.op ((namesAfter ops).op .enterScope) _ = _
      rw [he, List.foldl_append, ha]
      simp [Names.op, Visible.exitBlock, ← hvis]
    rw [this]

/-- C34: after every accepted history, an assignment is rejected for the reason of a constant exactly when the name means a constant — in the
same function, in a function around it, in the file or as a global — and otherwise stores to exactly the variable that a use of the name reads. -/
theorem C34_constants (ops : List NOp) (h : Accepted ops) (x : Name) :
    ((compileNames ops).storeVar x).2.denote ((compileNames ops).storeVar x).1 = (namesAfter ops).assignmentOf x ∧
    ((namesAfter ops).assignmentOf x = .constant → ((compileNames ops).storeVar x).2.ok = false) ∧
    ((namesAfter ops).assignmentOf x ≠ .constant → (namesAfter ops).assignmentOf x = (namesAfter ops).useOf x) := by
  have hi := h.inv
  obtain ⟨h1, h2, h3⟩ := nstoreVar_spec hi x
  refine ⟨?_, ?_, ?_⟩
  · unfold Names.assignmentOf
    cases hl : (namesAfter ops).vis.lookup x with
    | none =>
      rw [hl] at h3
      simp only at h3 ⊢
      rw [h3]
      cases (namesAfter ops).globals x with
      | none => rfl
      | some c => cases c <;> rfl
    | some q =>
      obtain ⟨v, d, k⟩ := q
      rw [hl] at h3
      simp only at h3 ⊢
      have := RepP.slot_lt h1.rep hl
      cases hc : v.const_ with
      | true => rw [hc] at h3; simp only [if_true] at h3 ⊢; rw [h3.1]; rfl
      | false =>
        rw [hc] at h3
        simp only [Bool.false_eq_true, if_false] at h3 ⊢
        exact h3.1.denote h1.rep (by omega)
  · intro hc
    unfold Names.assignmentOf at hc
    cases hl : (namesAfter ops).vis.lookup x with
    | none =>
      have hgl := hi.glob x
      rw [hl] at hc h3
      simp only at hc h3
      have hr : ((compileNames ops).storeVar x).1 = .constErr := by
        rw [h3]
        cases hg : (namesAfter ops).globals x with
        | none => rw [hg] at hc; simp at hc
        | some c => rw [hg] at hc; cases c <;> simp_all
      revert hr
      simp only [NState.storeVar, NState.upvalRef]
      repeat' split
      all_goals simp
    | some q =>
      obtain ⟨v, d, k⟩ := q
      rw [hl] at hc h3
      simp only at hc h3
      cases hv : v.const_ with
      | true => rw [hv] at h3; simp only [if_true] at h3; exact h3.2
      | false => rw [hv] at hc; simp at hc
  · intro hc
    unfold Names.assignmentOf Names.useOf at *
    cases hl : (namesAfter ops).vis.lookup x with
    | none =>
      rw [hl] at hc
      simp only at hc ⊢
      cases hg : (namesAfter ops).globals x with
      | none => simp
      | some c => rw [hg] at hc; cases c <;> simp_all
    | some q =>
      obtain ⟨v, d, k⟩ := q
      rw [hl] at hc
      simp only at hc ⊢
      cases hv : v.const_ with
      | true => rw [hv] at hc; simp at hc
      | false => simp

/-- `let a; const b; fn(p) { let a; { fn() { ... } } }`: in the inner function `a` is the `a` of the function around it, `b` the constant of the
file, `p` a parameter. -/
def demoNames : List NOp := [.enterScope, .declare [97] false, .declare [98] true, .enterFn, .param [112] false, .load [97], .declare [97] false,
  .enterScope, .enterFn]

/-- the hypotheses are met by this text -/
example : Accepted demoNames := by
  refine ⟨?_, by decide, by decide⟩
  simp [demoNames, Names.allowsAll, Names.allows, Names.fresh, Names.op, Names.declare, Names.initial, Visible.declare, Visible.enterBlock]

example : (namesAfter demoNames).useOf [97] = .variable 1 1 ∧ (namesAfter demoNames).useOf [98] = .variable 0 1 ∧
    (namesAfter demoNames).useOf [112] = .variable 1 0 ∧ (namesAfter demoNames).assignmentOf [98] = .constant ∧
    (namesAfter demoNames).assignmentOf [112] = .variable 1 0 ∧ (namesAfter demoNames).useOf [99] = .undeclared := by decide

example : ((compileNames demoNames).loadVar [98]).1 = .upval 0 ∧ ((compileNames demoNames).storeVar [98]).1 = .constErr := by decide

/-! ## C76: parameters of the same name -/

/-- C76 is false when a name is repeated: in `fn(a, a, b)` the parameter `b` is compiled to slot 1, which holds the second argument; the third
argument is in slot 2.  The compiler accepts it. -/
theorem C76_repeated_parameter : let s := compileNames [.enterScope, .enterFn, .param [97] false, .param [97] false, .param [98] false]
    s.ok = true ∧ (s.loadVar [98]).1 = .slot 1 := by decide

/-- C76, the part that holds: with different names, parameter number `k` is compiled to slot `k`, where the `k`-th argument is.  Missing: repeated
names, where it is false. -/
theorem C76_parameters_partial (ops : List NOp) (params : List (Name × Bool)) (h : Accepted (ops ++ .enterFn :: params.map fun p => .param p.1 p.2))
    (hd : (params.map Prod.fst).Nodup) (k : Nat) (p : Name × Bool) (hk : params[k]? = some p) :
    ((compileNames (ops ++ .enterFn :: params.map fun p => .param p.1 p.2)).loadVar p.1).1 = .slot (BitVec.ofNat 64 k) := by
  have hi := h.inv
  have hvis : ∀ (ps : List (Name × Bool)) (n : Names) (b : List SVar) (fs : Visible), n.vis = [b] :: fs →
      ((ps.map fun p => NOp.param p.1 p.2).foldl Names.op n).vis = [(ps.map fun p => SVar.mk p.1 p.2).reverse ++ b] :: fs := by
    intro ps
    induction ps with
    | nil => intro n b fs h; simpa using h
    | cons q ps ih =>
      intro n b fs hn
      rw [List.map_cons, List.foldl_cons, ih (n.op (.param q.1 q.2)) (⟨q.1, q.2⟩ :: b) fs (by simp [Names.op, Names.declare, hn, Visible.declare])]
      simp
  have hv : (namesAfter (ops ++ .enterFn :: params.map fun p => .param p.1 p.2)).vis = [(params.map fun p => SVar.mk p.1 p.2).reverse] :: (namesAfter ops).vis := by
    unfold namesAfter
    rw [List.foldl_append, List.foldl_cons, hvis params _ [] (List.foldl Names.op Names.initial ops).vis rfl]
    simp
  have hfind : ∀ (ps : List (Name × Bool)) (k : Nat), (ps.map Prod.fst).Nodup → ps[k]? = some p →
      findVar p.1 (ps.map fun p => SVar.mk p.1 p.2).reverse = some (⟨p.1, p.2⟩, k) := by
    intro ps
    induction ps using List.reverseRecOn with
    | nil => intro k _ h; simp at h
    | append_singleton ps q ih =>
      intro k hd hk
      rw [List.map_append, List.reverse_append]
      simp only [List.map_cons, List.map_nil, List.reverse_cons, List.reverse_nil, List.nil_append, List.singleton_append, findVar]
      by_cases hkl : k < ps.length
      · rw [List.getElem?_append_left hkl] at hk
        have hne : q.1 ≠ p.1 := by
          intro hc
          rw [List.map_append] at hd
          exact (List.nodup_append.1 hd).2.2 p.1 (List.mem_map_of_mem (List.mem_of_getElem? hk)) q.1 (by simp) hc.symm
        rw [if_neg hne]
        exact ih k (by rw [List.map_append] at hd; exact (List.nodup_append.1 hd).1) hk
      · have hkl' : k = ps.length := by
          have := (List.getElem?_eq_some_iff.1 hk).1
          simp at this; omega
        subst hkl'
        simp at hk
        subst hk
        simp
  have hl : (namesAfter (ops ++ .enterFn :: params.map fun p => .param p.1 p.2)).vis.lookup p.1 = some (⟨p.1, p.2⟩, (namesAfter ops).vis.length, k) := by
    rw [hv]
    simp [Visible.lookup, hfind params k hd hk]
  have h3 := (nloadVar_spec hi p.1).2.2
  rw [hl] at h3
  have := h3.1
  unfold RefersTo at this
  rw [hv, if_pos (by simp)] at this
  exact this

end Yasl
