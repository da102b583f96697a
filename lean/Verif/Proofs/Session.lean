import Verif.Props.Compile
import Verif.Model.Session
set_option autoImplicit false
/-! # Statements at the prompt are compiled as in a file with an empty scope -/
namespace Yasl

/-- An empty scope at the bottom. -/
def CState.under (s : CState) : CState := { s with scopes := s.scopes ++ [[]] }

theorem scopeGet_under : ∀ (scs : List Scope) (x : Name), scopeGet (scs ++ [[]]) x = scopeGet scs x
  | [], x => rfl
  | sc :: scs, x => by
    rw [List.cons_append, scopeGet, scopeGet]
    cases sc.get x with
    | some v => rfl
    | none => exact scopeGet_under scs x

theorem scopeLen_under (scs : List Scope) : scopeLen (scs ++ [[]]) = scopeLen scs := by simp [scopeLen]

theorem scopeMakeConst_under : ∀ (scs : List Scope) (x : Name), scopeMakeConst (scs ++ [[]]) x = scopeMakeConst scs x ++ [[]]
  | [], x => rfl
  | sc :: scs, x => by
    rw [List.cons_append, scopeMakeConst, scopeMakeConst]
    cases sc.get x with
    | some v => rfl
    | none => show sc :: scopeMakeConst (scs ++ [[]]) x = _; rw [scopeMakeConst_under scs x]; rfl

theorem scopeMakeConst_length : ∀ (scs : List Scope) (x : Name), (scopeMakeConst scs x).length = scs.length
  | [], x => rfl
  | sc :: scs, x => by
    rw [scopeMakeConst]
    cases sc.get x with
    | some v => rfl
    | none => show (sc :: scopeMakeConst scs x).length = _; simp [scopeMakeConst_length scs x]

/-- Same result with the empty scope below, and as many scopes as before. -/
def Under (f : CState → CState) (s : CState) : Prop := f s.under = (f s).under ∧ (f s).scopes.length = s.scopes.length

theorem Under.comp {f g : CState → CState} {s : CState} (h1 : Under f s) (h2 : Under g (f s)) : Under (fun s => g (f s)) s :=
  ⟨by show g (f s.under) = _; rw [h1.1, h2.1], by show (g (f s)).scopes.length = _; rw [h2.2, h1.2]⟩

theorem Under.op (o : Opc) (s : CState) : Under (fun s => s.op o) s := ⟨rfl, rfl⟩
theorem Under.emit (b : Byte) (s : CState) : Under (fun s => s.emit b) s := ⟨rfl, rfl⟩
theorem Under.int (v : BitVec 64) (s : CState) : Under (fun s => s.int v) s := ⟨rfl, rfl⟩

theorem intern_under (s : CState) (v : Val) : (s.under.intern v).2 = (s.intern v).2.under ∧ (s.under.intern v).1 = (s.intern v).1 ∧ (s.intern v).2.scopes = s.scopes := by
  unfold CState.intern
  rw [show s.under.pool = s.pool from rfl]
  cases h : (if v.selfEqual = true then List.idxOf? v s.pool else none) <;> exact ⟨rfl, rfl, rfl⟩

theorem literal_under (s : CState) (i : Nat) : s.under.literal i = (s.literal i).under := by
  unfold CState.literal; split <;> rfl

theorem literal_scopes (s : CState) (i : Nat) : (s.literal i).scopes = s.scopes := by
  unfold CState.literal; split <;> rfl

theorem Under.pushLiteral (v : Val) (s : CState) : Under (fun s => s.pushLiteral v) s := by
  obtain ⟨h1, h2, h3⟩ := intern_under s v
  refine ⟨?_, ?_⟩
  · show s.under.pushLiteral v = _
    rw [CState.pushLiteral, h1, h2, literal_under]; rfl
  · show (s.pushLiteral v).scopes.length = _
    rw [CState.pushLiteral, literal_scopes, h3]

theorem Under.loadVar (x : Name) (s : CState) : Under (fun s => s.loadVar x) s := by
  unfold Under
  dsimp only [CState.loadVar]
  rw [show s.under.scopes = s.scopes ++ [[]] from rfl, scopeGet_under, show s.under.globals = s.globals from rfl]
  cases scopeGet s.scopes x with
  | some v => exact ⟨rfl, rfl⟩
  | none => dsimp only; split <;> exact ⟨rfl, rfl⟩

theorem Under.storeVar (x : Name) (s : CState) : Under (fun s => s.storeVar x) s := by
  unfold Under
  dsimp only [CState.storeVar]
  rw [show s.under.scopes = s.scopes ++ [[]] from rfl, scopeGet_under, show s.under.globals = s.globals from rfl]
  cases scopeGet s.scopes x with
  | some v => dsimp only; split <;> exact ⟨rfl, rfl⟩
  | none =>
    dsimp only
    cases s.globals.get x with
    | some v => dsimp only; split <;> exact ⟨rfl, rfl⟩
    | none => exact ⟨rfl, rfl⟩

theorem contains_under (s : CState) (x : Name) : s.under.contains x = s.contains x := by
  rw [CState.contains, CState.contains, show s.under.scopes = s.scopes ++ [[]] from rfl, scopeGet_under]; rfl

theorem containsCur_under (s : CState) (x : Name) (h : s.scopes ≠ []) : s.under.containsCur x = s.containsCur x := by
  rw [CState.containsCur, CState.containsCur, show s.under.scopes = s.scopes ++ [[]] from rfl]
  cases hs : s.scopes with
  | nil => exact absurd hs h
  | cons sc scs => rfl

theorem Under.declVar (x : Name) (s : CState) (h : s.scopes ≠ []) : Under (fun s => s.declVar x) s := by
  cases hs : s.scopes with
  | nil => exact absurd hs h
  | cons sc scs =>
    unfold Under
    dsimp only [CState.declVar]
    rw [show s.under.scopes = sc :: (scs ++ [[]]) from by show s.scopes ++ [[]] = _; rw [hs]; rfl, hs]
    dsimp only
    rw [show (sc :: (scs ++ [[]])) = (sc :: scs) ++ [[]] from rfl, scopeLen_under,
      show sc.put x (BitVec.ofNat 64 (scopeLen (sc :: scs))) :: (scs ++ [[]]) = (sc.put x (BitVec.ofNat 64 (scopeLen (sc :: scs))) :: scs) ++ [[]] from rfl, scopeLen_under]
    split <;> exact ⟨rfl, by simp [CState.error]⟩

theorem Under.makeConst (x : Name) (s : CState) (h : s.scopes ≠ []) : Under (fun s => s.makeConst x) s := by
  cases hs : s.scopes with
  | nil => exact absurd hs h
  | cons sc scs =>
    unfold Under
    dsimp only [CState.makeConst]
    rw [show s.under.scopes = sc :: (scs ++ [[]]) from by show s.scopes ++ [[]] = _; rw [hs]; rfl, hs]
    dsimp only
    rw [show (sc :: (scs ++ [[]])) = (sc :: scs) ++ [[]] from rfl, scopeMakeConst_under]
    exact ⟨rfl, scopeMakeConst_length _ _⟩

mutual
theorem visitExpr_under : ∀ (e : Expr) (s : CState), Under (visitExpr e) s
  | .undef, s => by unfold Under; simp only [visitExpr]; exact ⟨rfl, rfl⟩
  | .bool b, s => by unfold Under; simp only [visitExpr]; exact ⟨rfl, rfl⟩
  | .int i, s => by unfold Under; simp only [visitExpr]; exact Under.pushLiteral _ s
  | .float f, s => by unfold Under; simp only [visitExpr]; exact Under.pushLiteral _ s
  | .str t, s => by unfold Under; simp only [visitExpr]; exact Under.pushLiteral _ s
  | .var x, s => by unfold Under; simp only [visitExpr]; exact Under.loadVar _ s
  | .un o e, s => by
    have h := visitExpr_under e s
    unfold Under at *; simp only [visitExpr]; rw [h.1]; exact ⟨rfl, h.2⟩
  | .bin (.op o) l r, s => by
    have h := visitExpr_under l s
    have h2 := visitExpr_under r (visitExpr l s)
    unfold Under at *; simp only [visitExpr]; rw [h.1, h2.1]; exact ⟨rfl, h2.2.trans h.2⟩
  | .bin .ne l r, s => by
    have h := visitExpr_under l s
    have h2 := visitExpr_under r (visitExpr l s)
    unfold Under at *; simp only [visitExpr]; rw [h.1, h2.1]; exact ⟨rfl, h2.2.trans h.2⟩
  | .bin .nid l r, s => by
    have h := visitExpr_under l s
    have h2 := visitExpr_under r (visitExpr l s)
    unfold Under at *; simp only [visitExpr]; rw [h.1, h2.1]; exact ⟨rfl, h2.2.trans h.2⟩
  | .bin .and l r, s => by
    have h := visitExpr_under l s
    have h2 := visitExpr_under r ((visitExpr l s).shortcircuit .BRF_8)
    unfold Under at *; simp only [visitExpr]; rw [h.1]
    rw [show (visitExpr l s).under.shortcircuit .BRF_8 = ((visitExpr l s).shortcircuit .BRF_8).under from rfl, h2.1]; exact ⟨rfl, h2.2.trans h.2⟩
  | .bin .or l r, s => by
    have h := visitExpr_under l s
    have h2 := visitExpr_under r ((visitExpr l s).shortcircuit .BRT_8)
    unfold Under at *; simp only [visitExpr]; rw [h.1]
    rw [show (visitExpr l s).under.shortcircuit .BRT_8 = ((visitExpr l s).shortcircuit .BRT_8).under from rfl, h2.1]; exact ⟨rfl, h2.2.trans h.2⟩
  | .bin .coalesce l r, s => by
    have h := visitExpr_under l s
    have h2 := visitExpr_under r ((visitExpr l s).shortcircuit .BRN_8)
    unfold Under at *; simp only [visitExpr]; rw [h.1]
    rw [show (visitExpr l s).under.shortcircuit .BRN_8 = ((visitExpr l s).shortcircuit .BRN_8).under from rfl, h2.1]; exact ⟨rfl, h2.2.trans h.2⟩
  | .tri c a b, s => by
    have h := visitExpr_under c s
    have h2 := visitExpr_under a ((visitExpr c s).jump .BRF_8)
    have h3 := visitExpr_under b (((visitExpr a ((visitExpr c s).jump .BRF_8)).jump .BR_8).patch ((visitExpr c s).buffer.length + 1))
    unfold Under at *; simp only [visitExpr]; rw [h.1]
    rw [show (visitExpr c s).under.jump .BRF_8 = ((visitExpr c s).jump .BRF_8).under from rfl, h2.1]
    rw [show ((visitExpr a ((visitExpr c s).jump .BRF_8)).under.jump .BR_8).patch ((visitExpr c s).under.buffer.length + 1) =
      (((visitExpr a ((visitExpr c s).jump .BRF_8)).jump .BR_8).patch ((visitExpr c s).buffer.length + 1)).under from rfl, h3.1]
    exact ⟨rfl, h3.2.trans (h2.2.trans h.2)⟩
  | .list es, s => by
    have h := visitExprs_under es (s.op .END)
    unfold Under at *; simp only [visitExpr]; rw [show s.under.op .END = (s.op .END).under from rfl, h.1]; exact ⟨rfl, h.2⟩
  | .table es, s => by
    have h := visitExprs_under es (s.op .END)
    unfold Under at *; simp only [visitExpr]; rw [show s.under.op .END = (s.op .END).under from rfl, h.1]; exact ⟨rfl, h.2⟩
  | .get c k, s => by
    have h := visitExpr_under c s
    have h2 := visitExpr_under k (visitExpr c s)
    unfold Under at *; simp only [visitExpr]; rw [h.1, h2.1]; exact ⟨rfl, h2.2.trans h.2⟩
  | .slice c a b, s => by
    have h := visitExpr_under c s
    have h2 := visitExpr_under a (visitExpr c s)
    have h3 := visitExpr_under b (visitExpr a (visitExpr c s))
    unfold Under at *; simp only [visitExpr]; rw [h.1, h2.1, h3.1]; exact ⟨rfl, h3.2.trans (h2.2.trans h.2)⟩
theorem visitExprs_under : ∀ (es : Exprs) (s : CState), Under (visitExprs es) s
  | .nil, s => by unfold Under; simp only [visitExprs]; exact ⟨trivial, trivial⟩
  | .cons e es, s => by
    have h := visitExpr_under e s
    have h2 := visitExprs_under es (visitExpr e s)
    unfold Under at *; simp only [visitExprs]; rw [h.1, h2.1]; exact ⟨rfl, h2.2.trans h.2⟩
end

theorem ne_of_len {s s' : CState} (h : s'.scopes.length = s.scopes.length) (hs : s.scopes ≠ []) : s'.scopes ≠ [] := by
  intro h'; rw [h', List.length_nil] at h; exact hs (List.length_eq_zero_iff.1 h.symm)

theorem visitLVals_under : ∀ (ls : List LVal) (s : CState), (s.scopes ≠ [] ∨ (ls.map LVal.declares).sum = 0) → Under (visitLVals ls) s
  | [], s, _ => by unfold Under; simp only [visitLVals]; exact ⟨trivial, trivial⟩
  | .assign x :: ls, s, h => by
    have h0 := Under.storeVar x ((s.op .MOVEUP_FP).emit (BitVec.ofNat 8 (scopeLen s.scopes)))
    have h1 := visitLVals_under ls (((s.op .MOVEUP_FP).emit (BitVec.ofNat 8 (scopeLen s.scopes))).storeVar x) (by
      rcases h with h | h
      · exact .inl (ne_of_len h0.2 h)
      · exact .inr (by simpa [LVal.declares] using h))
    unfold Under at *
    dsimp only at h0
    simp only [visitLVals, contains_under]
    by_cases hc : (!s.contains x) = true
    · rw [if_pos hc, if_pos hc]; exact ⟨rfl, rfl⟩
    · rw [if_neg hc, if_neg hc, show s.under.scopes = s.scopes ++ [[]] from rfl, scopeLen_under]
      rw [show (s.under.op .MOVEUP_FP).emit (BitVec.ofNat 8 (scopeLen s.scopes)) = ((s.op .MOVEUP_FP).emit (BitVec.ofNat 8 (scopeLen s.scopes))).under from rfl, h0.1, h1.1]
      exact ⟨rfl, h1.2.trans h0.2⟩
  | .set c k :: ls, s, h => by
    have h0 := (visitExpr_under c s).comp (visitExpr_under k (visitExpr c s))
    have h1 := visitLVals_under ls ((((visitExpr k (visitExpr c s)).op .MOVEUP_FP).emit (BitVec.ofNat 8 (scopeLen (visitExpr k (visitExpr c s)).scopes))).op .SET) (by
      rcases h with h | h
      · exact .inl (ne_of_len (s' := visitExpr k (visitExpr c s)) h0.2 h)
      · exact .inr (by simpa [LVal.declares] using h))
    unfold Under at *
    simp only [visitLVals]
    dsimp only at h0
    rw [h0.1, show (visitExpr k (visitExpr c s)).under.scopes = (visitExpr k (visitExpr c s)).scopes ++ [[]] from rfl, scopeLen_under]
    rw [show (((visitExpr k (visitExpr c s)).under.op .MOVEUP_FP).emit (BitVec.ofNat 8 (scopeLen (visitExpr k (visitExpr c s)).scopes))).op .SET =
      ((((visitExpr k (visitExpr c s)).op .MOVEUP_FP).emit (BitVec.ofNat 8 (scopeLen (visitExpr k (visitExpr c s)).scopes))).op .SET).under from rfl, h1.1]
    exact ⟨rfl, h1.2.trans h0.2⟩
  | .let_ x :: ls, s, h => by
    replace h : s.scopes ≠ [] := by
      rcases h with h | h
      · exact h
      · simp [LVal.declares] at h
    have h0 := Under.declVar x s h
    have hn := ne_of_len (s' := s.declVar x) h0.2 h
    have h1 := visitLVals_under ls (s.declVar x) (.inl hn)
    unfold Under at *
    dsimp only at h0
    simp only [visitLVals, containsCur_under s x h]
    by_cases hc : s.containsCur x = true
    · rw [if_pos hc, if_pos hc]; exact ⟨rfl, rfl⟩
    · rw [if_neg hc, if_neg hc, h0.1, if_neg (by show (s.declVar x).scopes ++ [[]] ≠ []; simp), if_neg hn, h1.1]
      exact ⟨rfl, h1.2.trans h0.2⟩
  | .const_ x :: ls, s, h => by
    replace h : s.scopes ≠ [] := by
      rcases h with h | h
      · exact h
      · simp [LVal.declares] at h
    have h0 := Under.declVar x s h
    have hn := ne_of_len (s' := s.declVar x) h0.2 h
    have h2 := Under.makeConst x (s.declVar x) hn
    have h1 := visitLVals_under ls ((s.declVar x).makeConst x) (.inl (ne_of_len h2.2 hn))
    unfold Under at *
    dsimp only at h0 h2
    simp only [visitLVals, containsCur_under s x h]
    by_cases hc : s.containsCur x = true
    · rw [if_pos hc, if_pos hc]; exact ⟨rfl, rfl⟩
    · rw [if_neg hc, if_neg hc, h0.1, if_neg (by show (s.declVar x).scopes ++ [[]] ≠ []; simp), if_neg hn, h2.1, h1.1]
      exact ⟨rfl, h1.2.trans (h2.2.trans h0.2)⟩

theorem Under.enter {f : CState → CState} {s : CState} (h : Under f s.enterScope) : Under (fun s => (f s.enterScope).exitScope) s := by
  unfold Under at *
  dsimp only
  rw [show s.under.enterScope = s.enterScope.under from rfl, h.1]
  have h2 : (f s.enterScope).scopes.length = s.scopes.length + 1 := h.2
  cases hs : (f s.enterScope).scopes with
  | nil => rw [hs] at h2; cases h2
  | cons sc scs =>
    rw [hs] at h2
    simp only [CState.exitScope]
    rw [show (f s.enterScope).under.scopes = sc :: (scs ++ [[]]) from by show (f s.enterScope).scopes ++ [[]] = _; rw [hs]; rfl, hs]
    exact ⟨rfl, by simpa using h2⟩

theorem Under.validated {f : CState → CState} {s : CState} (h : Under f s) : Under (fun s => s.validated (f s)) s := by
  unfold Under at *
  dsimp only
  rw [h.1]; exact ⟨rfl, h.2⟩

theorem Under.ite {f g : CState → CState} {s : CState} (c : CState → Prop) [∀ s, Decidable (c s)] (hc : c s.under ↔ c s) (hf : c s → Under f s) (hg : ¬ c s → Under g s) :
    Under (fun s => if c s then f s else g s) s := by
  by_cases h : c s
  · have := hf h
    unfold Under at *
    dsimp only
    rw [if_pos (hc.2 h), if_pos h]; exact this
  · have := hg h
    unfold Under at *
    dsimp only
    rw [if_neg (fun h' => h (hc.1 h')), if_neg h]; exact this

theorem Under.while {c : Expr} {body post : CState → CState} {hasPost : Bool} {s : CState} (hb : ∀ s', s'.scopes.length = s.scopes.length → Under body s')
    (hp : ∀ s', s'.scopes.length = s.scopes.length → Under post s') : Under (visitWhile c body post hasPost) s := by
  show _ = _ ∧ _ = _
  unfold visitWhile
  by_cases hc : c.falseyNode = true
  · simp only [hc, if_true]
    have h1 := (hb s rfl).validated
    dsimp only [Under] at h1
    rw [h1.1]
    cases hasPost with
    | false => exact ⟨rfl, h1.2⟩
    | true =>
      have h2 := (hp (s.validated (body s)) h1.2).validated
      dsimp only [Under] at h2
      simp only [if_true]
      exact ⟨h2.1, h2.2.trans h1.2⟩
  · simp only [hc, if_false, Bool.false_eq_true]
    generalize hs1 : (if hasPost = true then (post (s.jump .BR_8)).patch (s.buffer.length + 1) else s) = s1
    have e1 : (if hasPost = true then (post (s.under.jump .BR_8)).patch (s.under.buffer.length + 1) else s.under) = s1.under ∧ s1.scopes.length = s.scopes.length := by
      cases hasPost with
      | false => simp only [Bool.false_eq_true, if_false] at hs1 ⊢; subst hs1; exact ⟨rfl, rfl⟩
      | true =>
        simp only [if_true] at hs1 ⊢
        have h2 := hp (s.jump .BR_8) rfl
        rw [show s.under.jump .BR_8 = (s.jump .BR_8).under from rfl, h2.1, ← hs1]
        exact ⟨rfl, h2.2⟩
    rw [e1.1, show (s.under.jump .BR_8).buffer.length = (s.jump .BR_8).buffer.length from rfl, show s.under.buffer.length = s.buffer.length from rfl]
    generalize (if hasPost = true then (s.jump Opc.BR_8).buffer.length else s.buffer.length) = start
    have h2 := visitExpr_under c (s1.addCheckpoint start)
    rw [show s1.under.addCheckpoint start = (s1.addCheckpoint start).under from rfl, h2.1]
    have h2b := h2.2
    generalize hs2 : visitExpr c (s1.addCheckpoint start) = s2 at h2b
    have h3 := hb ((s2.addCheckpoint s2.buffer.length).jump .BRF_8) (h2b.trans e1.2)
    rw [show (s2.under.addCheckpoint s2.under.buffer.length).jump .BRF_8 = ((s2.addCheckpoint s2.buffer.length).jump .BRF_8).under from rfl, h3.1]
    exact ⟨rfl, h3.2.trans (h2b.trans e1.2)⟩

mutual
theorem visitStmt_under : ∀ (st : Stmt) (s : CState) (n L d : Nat), Fits st n L d → (s.scopes ≠ [] ∨ st.declares = 0) → Under (visitStmt st) s
  | .expr e, s, n, L, d, hF, h => by
    show _ = _ ∧ _ = _
    simp only [visitStmt]
    split
    · exact ⟨rfl, rfl⟩
    · split
      · exact (visitExpr_under e s).validated
      · exact (visitExpr_under e s).comp (Under.op _ _)
  | .post (.assign x e), s, n, L, d, hF, h => by
    simp only [Fits] at hF
    have := visitStmt_under (.assign x e) s n L d (by simpa only [Fits] using hF) (.inr rfl)
    show _ = _ ∧ _ = _
    simp only [visitStmt] at this ⊢
    exact this
  | .post (.set c k v), s, n, L, d, hF, h => by
    simp only [Fits] at hF
    have := visitStmt_under (.set c k v) s n L d (by simpa only [Fits] using hF) (.inr rfl)
    show _ = _ ∧ _ = _
    simp only [visitStmt] at this ⊢
    exact this
  | .post (.expr _), _, _, _, _, hF, _ | .post (.post _), _, _, _, _, hF, _ | .post (.decl _ _), _, _, _, _, hF, _ | .post (.letOne _ _), _, _, _, _, hF, _
  | .post (.echo _), _, _, _, _, hF, _ | .post (.assert _), _, _, _, _, hF, _ | .post (.block _), _, _, _, _, hF, _ | .post (.ifThen _ _), _, _, _, _, hF, _
  | .post (.ifElse _ _ _), _, _, _, _, hF, _ | .post (.while_ _ _), _, _, _, _, hF, _ | .post (.forLoop _ _ _), _, _, _, _, hF, _
  | .post (.forIter _ _ _), _, _, _, _, hF, _ | .post .brk, _, _, _, _, hF, _ | .post .cont, _, _, _, _, hF, _ => by simp only [Fits] at hF
  | .decl ls rs, s, n, L, d, hF, h => by
    have h1 := visitExprs_under rs s
    have := h1.comp (visitLVals_under ls (visitExprs rs s) (by
      rcases h with h | h
      · exact .inl (ne_of_len h1.2 h)
      · exact .inr h))
    show _ = _ ∧ _ = _
    simp only [visitStmt]
    exact this
  | .letOne x e, s, n, L, d, hF, h => by
    replace h : s.scopes ≠ [] := by
      rcases h with h | h
      · exact h
      · cases h
    have h1 := visitExpr_under e s
    have h2 := Under.declVar x (visitExpr e s) (ne_of_len h1.2 h)
    have h3 := Under.storeVar x ((visitExpr e s).declVar x)
    show _ = _ ∧ _ = _
    simp only [visitStmt, containsCur_under s x h]
    dsimp only [Under] at h2 h3
    by_cases hc : s.containsCur x = true
    · rw [if_pos hc, if_pos hc]; exact ⟨rfl, rfl⟩
    · rw [if_neg hc, if_neg hc, h1.1, h2.1, show ((visitExpr e s).declVar x).under.scopes = ((visitExpr e s).declVar x).scopes ++ [[]] from rfl, scopeGet_under]
      by_cases hd : (scopeGet ((visitExpr e s).declVar x).scopes x).isSome = true
      · rw [if_pos hd, if_pos hd]; exact ⟨rfl, h2.2.trans h1.2⟩
      · rw [if_neg hd, if_neg hd]; exact ⟨h3.1, h3.2.trans (h2.2.trans h1.2)⟩
  | .assign x e, s, n, L, d, hF, h => by
    have h1 := (visitExpr_under e s).comp (Under.storeVar x _)
    show _ = _ ∧ _ = _
    simp only [visitStmt, contains_under]
    by_cases hc : (!s.contains x) = true
    · rw [if_pos hc, if_pos hc]; exact ⟨rfl, rfl⟩
    · rw [if_neg hc, if_neg hc]; exact h1
  | .set c k v, s, n, L, d, hF, h => by
    have h1 := (((visitExpr_under c s).comp (visitExpr_under k _)).comp (visitExpr_under v _)).comp (Under.op .SET _)
    show _ = _ ∧ _ = _
    simp only [visitStmt]
    exact h1
  | .echo e, s, n, L, d, hF, h => by
    have h1 := visitExpr_under e s
    show _ = _ ∧ _ = _
    simp only [visitStmt]
    rw [h1.1, show (visitExpr e s).under.scopes = (visitExpr e s).scopes ++ [[]] from rfl, scopeLen_under]
    exact ⟨rfl, h1.2⟩
  | .assert e, s, n, L, d, hF, h => by
    have h1 := (visitExpr_under e s).comp (Under.op .ASS _)
    show _ = _ ∧ _ = _
    simp only [visitStmt]
    exact h1
  | .block ss, s, n, L, d, hF, h => by
    simp only [Fits] at hF
    have h1 := (visitStmts_under ss s.enterScope n L d hF (by simp [CState.enterScope])).enter
    show _ = _ ∧ _ = _
    simp only [visitStmt]
    exact h1
  | .ifThen c t, s, n, L, d, hF, h => by
    simp only [Fits] at hF
    have ht : ∀ s', Under (visitStmt t) s' := fun s' => visitStmt_under t s' n L d hF.2.2 (.inr hF.2.1)
    show _ = _ ∧ _ = _
    simp only [visitStmt]
    split
    · exact ht s
    · split
      · exact (ht s).validated
      · have h1 := visitExpr_under c s
        have h2 := ht ((visitExpr c s).jump .BRF_8)
        rw [h1.1, show (visitExpr c s).under.jump .BRF_8 = ((visitExpr c s).jump .BRF_8).under from rfl, h2.1]
        exact ⟨rfl, h2.2.trans h1.2⟩
  | .ifElse c t e, s, n, L, d, hF, h => by
    simp only [Fits] at hF
    have ht : ∀ s', Under (visitStmt t) s' := fun s' => visitStmt_under t s' n L d hF.2.1.2 (.inr hF.2.1.1)
    have he : ∀ s', Under (visitStmt e) s' := fun s' => visitStmt_under e s' n L d hF.2.2.2 (.inr hF.2.2.1)
    show _ = _ ∧ _ = _
    simp only [visitStmt]
    split
    · have := (ht s).comp (he (visitStmt t s)).validated
      exact this
    · split
      · have := (ht s).validated.comp (he _)
        exact this
      · have h1 := visitExpr_under c s
        have h2 := ht ((visitExpr c s).jump .BRF_8)
        have h3 := he (((visitStmt t ((visitExpr c s).jump .BRF_8)).jump .BR_8).patch ((visitExpr c s).buffer.length + 1))
        rw [h1.1, show (visitExpr c s).under.jump .BRF_8 = ((visitExpr c s).jump .BRF_8).under from rfl, h2.1]
        rw [show ((visitStmt t ((visitExpr c s).jump .BRF_8)).under.jump .BR_8).patch ((visitExpr c s).under.buffer.length + 1) =
          (((visitStmt t ((visitExpr c s).jump .BRF_8)).jump .BR_8).patch ((visitExpr c s).buffer.length + 1)).under from rfl, h3.1]
        exact ⟨rfl, h3.2.trans (h2.2.trans h1.2)⟩
  | .while_ c body, s, n, L, d, hF, h => by
    simp only [Fits] at hF
    have h1 := Under.while (c := c) (body := visitStmt body) (post := id) (hasPost := false) (s := s)
      (fun s' _ => visitStmt_under body s' n n d hF.2.2 (.inr hF.2.1)) (fun s' _ => ⟨rfl, rfl⟩)
    show _ = _ ∧ _ = _
    simp only [visitStmt]
    exact h1
  | .forLoop c body post, s, n, L, d, hF, h => by
    simp only [Fits] at hF
    have h1 := Under.while (c := c) (body := visitStmt body) (post := visitStmt post) (hasPost := true) (s := s)
      (fun s' _ => visitStmt_under body s' n n d hF.2.1.2 (.inr hF.2.1.1)) (fun s' _ => visitStmt_under post s' n L d hF.2.2.2 (.inr (by
        obtain ⟨st, hst⟩ := hF.2.2.1
        rw [hst]; rfl)))
    show _ = _ ∧ _ = _
    simp only [visitStmt]
    exact h1
  | .forIter x coll body, s, n, L, d, hF, h => by
    simp only [Fits] at hF
    have hbody : ∀ s', Under (visitStmt body) s' := fun s' => visitStmt_under body s' (n + 1) (n + 1) (d + 1) hF.2.2.2.2.2 (.inr hF.2.2.2.2.1)
    have he := visitExpr_under coll s.enterScope
    have h1 : Under (fun s => (((visitExpr coll s).op .INITFOR).op .END).declVar x) s.enterScope :=
      (he.comp ((Under.op .INITFOR _).comp (Under.op .END _))).comp (Under.declVar x (((visitExpr coll s.enterScope).op .INITFOR).op .END) (ne_of_len he.2 (by simp [CState.enterScope])))
    show _ = _ ∧ _ = _
    simp only [visitStmt]
    dsimp only [Under] at h1
    rw [show s.under.enterScope = s.enterScope.under from rfl, h1.1]
    generalize hs1 : (((visitExpr coll s.enterScope).op .INITFOR).op .END).declVar x = s1 at h1
    have h3 := Under.storeVar x (((((s1.addCheckpoint s1.buffer.length).op .ITER_1).addCheckpoint ((s1.addCheckpoint s1.buffer.length).op .ITER_1).buffer.length).jump .BRF_8))
    dsimp only [Under] at h3
    rw [show (((s1.under.addCheckpoint s1.under.buffer.length).op .ITER_1).addCheckpoint ((s1.under.addCheckpoint s1.under.buffer.length).op .ITER_1).buffer.length).jump .BRF_8 =
      ((((s1.addCheckpoint s1.buffer.length).op .ITER_1).addCheckpoint ((s1.addCheckpoint s1.buffer.length).op .ITER_1).buffer.length).jump .BRF_8).under from rfl, h3.1]
    generalize hs3 : ((((s1.addCheckpoint s1.buffer.length).op .ITER_1).addCheckpoint ((s1.addCheckpoint s1.buffer.length).op .ITER_1).buffer.length).jump .BRF_8).storeVar x = s3 at h3
    have h4 := hbody s3
    rw [h4.1]
    have hl : (visitStmt body s3).scopes.length = s.scopes.length + 1 := h4.2.trans (h3.2.trans h1.2)
    cases hs : (visitStmt body s3).scopes with
    | nil => rw [hs] at hl; cases hl
    | cons sc scs =>
      rw [hs] at hl
      have e2 : ∀ (s4 s5 : CState), s4.scopes = sc :: scs → s5 = s4.under → s5.exitScope.rmCheckpoints = s4.exitScope.rmCheckpoints.under ∧ s4.exitScope.rmCheckpoints.scopes = scs := by
        intro s4 s5 h4 h5
        subst h5
        simp only [CState.exitScope]
        rw [show s4.under.scopes = sc :: (scs ++ [[]]) from by show s4.scopes ++ [[]] = _; rw [h4]; rfl, h4]
        exact ⟨rfl, rfl⟩
      have e3 := e2 ((((visitStmt body s3).branchBack s1.buffer.length).patch (((s1.addCheckpoint s1.buffer.length).op .ITER_1).buffer.length + 1)).op .ENDFOR) _ hs rfl
      exact ⟨e3.1, by rw [e3.2]; simpa using hl⟩
  | .brk, s, n, L, d, hF, h => by
    show _ = _ ∧ _ = _
    simp only [visitStmt]
    rw [show s.under.checkpoints = s.checkpoints from rfl]
    cases s.checkpoints <;> exact ⟨rfl, rfl⟩
  | .cont, s, n, L, d, hF, h => by
    show _ = _ ∧ _ = _
    simp only [visitStmt]
    rw [show s.under.checkpoints = s.checkpoints from rfl]
    cases s.checkpoints <;> exact ⟨rfl, rfl⟩
theorem visitStmts_under : ∀ (ss : Stmts) (s : CState) (n L d : Nat), FitsAll ss n L d → s.scopes ≠ [] → Under (visitStmts ss) s
  | .nil, s, n, L, d, hF, h => by show _ = _ ∧ _ = _; simp only [visitStmts]; exact ⟨trivial, trivial⟩
  | .cons st ss, s, n, L, d, hF, h => by
    simp only [FitsAll] at hF
    have h1 := visitStmt_under st s n L d hF.1 (.inl h)
    have := h1.comp (visitStmts_under ss (visitStmt st s) _ L d hF.2 (ne_of_len h1.2 h))
    show _ = _ ∧ _ = _
    simp only [visitStmts]
    exact this
end

end Yasl
