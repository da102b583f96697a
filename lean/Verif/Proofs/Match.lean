import Verif.Model.Match
import Verif.Proofs.Pattern
set_option autoImplicit false
namespace Yasl

/-- the slots of a clause are those after the `vars` variables around it, and the pattern is one of those that are matched correctly -/
structure ClauseOk (K : List Val) (ix : Val → Nat) (vars : Nat) (c : Clause) : Prop where
  bal : c.pat.Balanced
  plain : c.pat.PlainLeft
  sized : c.pat.Sized
  lits : Numbered K ix c.pat.lits
  slots : ∀ s, s ∈ c.pat.vars ↔ vars ≤ s ∧ s < vars + c.binds
  sure : ∀ s ∈ c.pat.vars, s ∈ c.pat.sure

variable (H : Heap) (K : List Val) (ix : Val → Nat) (F : Nat)

theorem mrun_cons (m : MI) (code : List MI) (s : MatchState) : runMatch H K ix F (m :: code) s = match stepMatch H K ix F m s with
    | none => none
    | some (s, skip) => runMatch H K ix F (code.drop skip) s := by rw [runMatch]; rfl

theorem mrun_cons_some {m : MI} {s s' : MatchState} {skip : Nat} (h : stepMatch H K ix F m s = some (s', skip)) (code : List MI) :
    runMatch H K ix F (m :: code) s = runMatch H K ix F (code.drop skip) s' := by rw [mrun_cons, h]

theorem mrun_pops : ∀ (n : Nat) (code : List MI) (s : MatchState), runMatch H K ix F (List.replicate n .pop ++ code) s = runMatch H K ix F code { s with len := s.len - n }
  | 0, code, s => rfl
  | n + 1, code, s => by
    rw [List.replicate_succ, List.cons_append, mrun_cons_some H K ix F (m := .pop) (s' := { s with len := s.len - 1 }) (skip := 0) rfl, List.drop_zero, mrun_pops n]
    rw [Nat.sub_sub, Nat.add_comm 1 n]

theorem bindAllIn_bound : ∀ (l : List (Nat × Val)) (a b : Nat → Val) (s : Nat), s ∈ l.map Prod.fst → bindAllIn a l s = bindAllIn b l s
  | [], _, _, s, h => by simp at h
  | (t, v) :: l, a, b, s, h => by
    rw [bindAllIn, bindAllIn]
    by_cases hs : s ∈ l.map Prod.fst
    · exact bindAllIn_bound l _ _ s hs
    · simp only [List.map_cons, List.mem_cons] at h
      have : s = t := h.resolve_right hs
      rw [bindAllIn_other l _ s hs, bindAllIn_other l _ s hs, if_pos this, if_pos this]

theorem visible_congr {n : Nat} {a b : Nat → Val} (h : ∀ t, t < n → a t = b t) : visible n a = visible n b :=
  List.map_congr_left fun t ht => h t (List.mem_range.1 ht)

/-- the state before a clause -/
structure Before (vars : Nat) (v : Val) (base : Nat → Val) (log : List (Nat × List Val)) (s : MatchState) : Prop where
  len : s.len = vars + 1
  top : s.stack vars = v
  below : ∀ t, t < vars → s.stack t = base t
  log : s.log = log

/-- the state after the statement -/
structure After (len : Nat) (vars : Nat) (base : Nat → Val) (log : List (Nat × List Val)) (s : MatchState) : Prop where
  len : s.len = len
  below : ∀ t, t < vars → s.stack t = base t
  log : s.log = log

variable {H K ix F}

theorem mtch_fail {vars : Nat} {v : Val} {base : Nat → Val} {log : List (Nat × List Val)} {s : MatchState} {c : Clause} (hs : Before vars v base log s) (hc : ClauseOk K ix vars c)
    (hF : c.pat.depth ≤ F) (hb : c.pat.bindings H v = none) (skip : Nat) : ∃ s', stepMatch H K ix F (.mtch c.pat skip) s = some (s', skip) ∧ Before vars v base log s' := by
  have h := matchPat_ok H K ix c.pat F v (fun t => s.stack (t + 1)) [] hF hc.bal (plainLeft_met H c.pat v hc.plain) hc.sized hc.lits
  rw [hb] at h
  obtain ⟨us, sl, h1, _, _, h4⟩ := h
  rw [List.append_nil, List.append_nil] at h1
  have htop : s.stack (s.len - 1) = v := by rw [hs.len]; exact hs.top
  have keep : ∀ t, t ≤ vars → (if t = 0 then s.stack 0 else sl (t - 1)) = s.stack t := fun t ht => by
    by_cases h0 : t = 0
    · rw [if_pos h0, h0]
    · rw [if_neg h0, h4 (t - 1) (fun hm => by have := (hc.slots _).1 hm; omega)]
      show s.stack (t - 1 + 1) = _
      rw [Nat.sub_add_cancel (by omega)]
  refine ⟨{ s with stack := fun t => if t = 0 then s.stack 0 else sl (t - 1) }, ?_, hs.len, ?_, ?_, hs.log⟩
  · simp only [stepMatch, htop, h1, Option.bind_some]
    simp
  · exact (keep vars (Nat.le_refl _)).trans hs.top
  · exact fun t ht => (keep t (by omega)).trans (hs.below t ht)

theorem mtch_hit {vars : Nat} {v : Val} {base : Nat → Val} {log : List (Nat × List Val)} {s : MatchState} {c : Clause} (hs : Before vars v base log s) (hc : ClauseOk K ix vars c)
    (hF : c.pat.depth ≤ F) {l : List (Nat × Val)} (hb : c.pat.bindings H v = some l) (skip : Nat) : ∃ s', stepMatch H K ix F (.mtch c.pat skip) s = some (s', 0) ∧
      Before vars v base log s' ∧ ∀ t, vars ≤ t → t < vars + c.binds → s'.stack (t + 1) = bindAllIn base l t := by
  have h := matchPat_ok H K ix c.pat F v (fun t => s.stack (t + 1)) [] hF hc.bal (plainLeft_met H c.pat v hc.plain) hc.sized hc.lits
  rw [hb] at h
  simp only [MatchOk, List.append_nil] at h
  have hbound := Pat.sure_bound H c.pat v l hb
  have htop : s.stack (s.len - 1) = v := by rw [hs.len]; exact hs.top
  have keep : ∀ t, t ≤ vars → (if t = 0 then s.stack 0 else bindAllIn (fun t => s.stack (t + 1)) l (t - 1)) = s.stack t := fun t ht => by
    by_cases h0 : t = 0
    · rw [if_pos h0, h0]
    · rw [if_neg h0, bindAllIn_other l _ (t - 1) (fun hm => by have := (hc.slots _).1 (hbound.2 _ hm); omega)]
      show s.stack (t - 1 + 1) = _
      rw [Nat.sub_add_cancel (by omega)]
  refine ⟨{ s with stack := fun t => if t = 0 then s.stack 0 else bindAllIn (fun t => s.stack (t + 1)) l (t - 1) }, ?_, ⟨hs.len, ?_, ?_, hs.log⟩, ?_⟩
  · simp only [stepMatch, htop, h, Option.bind_some]
    simp
  · exact (keep vars (Nat.le_refl _)).trans hs.top
  · exact fun t ht => (keep t (by omega)).trans (hs.below t ht)
  · intro t h1 h2
    show (if t + 1 = 0 then s.stack 0 else bindAllIn (fun t => s.stack (t + 1)) l (t + 1 - 1)) = _
    rw [if_neg (by omega), Nat.add_sub_cancel]
    exact bindAllIn_bound l _ _ t (hbound.1 t (hc.sure t ((hc.slots t).2 ⟨h1, h2⟩)))

/-- the body and what follows it, when nothing of the other clauses is run any more -/
theorem body_run {vars i n : Nat} {vals : List Val} {base : Nat → Val} {log : List (Nat × List Val)} {s : MatchState} (hlen : s.len = vars + n) (hvis : visible (vars + n) s.stack = vals)
    (hbelow : ∀ t, t < vars → s.stack t = base t) (hlog : s.log = log) (leave rest : List MI)
    (hl : (leave = [] ∧ rest = []) ∨ leave = [MI.br rest.length]) :
    ∃ s', runMatch H K ix F (MI.body i :: (List.replicate n .pop ++ leave) ++ rest) s = some s' ∧ After vars vars base (log ++ [(i, vals)]) s' := by
  refine ⟨{ s with len := vars, log := log ++ [(i, vals)] }, ?_, rfl, hbelow, rfl⟩
  rw [List.cons_append, mrun_cons_some H K ix F (m := .body i) (s' := { s with log := s.log ++ [(i, visible s.len s.stack)] }) (skip := 0) rfl, List.drop_zero, List.append_assoc, mrun_pops]
  simp only [hlen, hvis, hlog, Nat.add_sub_cancel]
  rcases hl with ⟨rfl, rfl⟩ | rfl
  · rw [List.nil_append, runMatch]
  · rw [List.singleton_append, mrun_cons_some H K ix F (m := .br rest.length) (s' := { s with len := vars, log := log ++ [(i, vals)] }) (skip := rest.length) rfl, List.drop_length, runMatch]

/-- guards are only used on clauses without variables, or as `let x if ...` in clauses that are not the last -/
def GuardsSafe (vars : Nat) : List Clause → Prop
  | [] => True
  | c :: cs => (c.guard = none ∨ c.binds = 0 ∨ (c.binds = 1 ∧ c.pat = .bind vars ∧ cs ≠ [])) ∧ GuardsSafe vars cs

theorem clauses_run {vars : Nat} {v : Val} {base : Nat → Val} : ∀ (cs : List Clause) (i : Nat) (s : MatchState) (log : List (Nat × List Val)), Before vars v base log s →
    (∀ c ∈ cs, ClauseOk K ix vars c) → GuardsSafe vars cs → (∀ c ∈ cs, c.pat.depth ≤ F) →
    ∃ s', runMatch H K ix F (compileClauses vars i cs) s = some s' ∧
      match selectClause H vars v base i cs with
      | some r => After vars vars base (log ++ [r]) s'
      | none => After (vars + 1) vars base log s' ∧ s'.stack vars = v
  | [], i, s, log, hs, _, _, _ => ⟨s, by rw [compileClauses, runMatch], ⟨hs.len, hs.below, hs.log⟩, hs.top⟩
  | c :: cs, i, s, log, hs, hok, hk, hF => by
    have ih := fun s (hs : Before vars v base log s) => clauses_run cs (i + 1) s log hs (fun c h => hok c (by simp [h])) hk.2 (fun c h => hF c (by simp [h]))
    have hc := hok c (by simp)
    have hkc := hk.1
    rw [compileClauses]
    generalize hrest : compileClauses vars (i + 1) cs = rest at ih
    generalize hleave : (if cs.length > 0 then [MI.br ((guardPops c).length + rest.length)] else []) = leave
    have hl : (leave = [] ∧ rest = [] ∧ cs = []) ∨ leave = [MI.br ((guardPops c).length + rest.length)] := by
      cases cs with
      | nil => left; exact ⟨by rw [← hleave]; rfl, by rw [← hrest]; rfl, rfl⟩
      | cons d ds => right; rw [← hleave]; rfl
    cases hb : c.pat.bindings H v with
    | none =>
      obtain ⟨s', h1, h2⟩ := mtch_fail hs hc (hF c (by simp)) hb (clauseHead vars c (MI.body i :: (List.replicate c.binds .pop ++ leave)).length ++
        MI.body i :: (List.replicate c.binds .pop ++ leave) ++ guardPops c).length
      rw [mrun_cons_some H K ix F h1, List.drop_left, selectClause, hb]
      exact ih s' h2
    | some l =>
      obtain ⟨s1, h1, h2, h3⟩ := mtch_hit hs hc (hF c (by simp)) hb (clauseHead vars c (MI.body i :: (List.replicate c.binds .pop ++ leave)).length ++
        MI.body i :: (List.replicate c.binds .pop ++ leave) ++ guardPops c).length
      have hbound := Pat.sure_bound H c.pat v l hb
      have hlow : ∀ t, t < vars → bindAllIn base l t = base t := fun t ht => bindAllIn_other l _ t fun hm => by
        have := (hc.slots _).1 (hbound.2 _ hm); omega
      rw [mrun_cons_some H K ix F h1, List.drop_zero, selectClause, hb]
      rcases Option.eq_none_or_eq_some c.guard with hg | ⟨g, hg⟩
      · have ha : c.admits vars (bindAllIn base l) = true := by rw [Clause.admits, hg]
        simp only [ha]
        have hgp : guardPops c = [] := by rw [guardPops, hg]
        rw [hgp] at hl ⊢
        simp only [List.length_nil, Nat.zero_add, List.append_nil] at hl ⊢
        simp only [if_true]
        by_cases hn : c.binds > 0
        · have hh : ∀ k, clauseHead vars c k = [.incsp c.binds, .delfp vars] := fun k => by rw [clauseHead, if_pos hn, hg]
          rw [hh]
          simp only [List.cons_append, List.nil_append]
          rw [mrun_cons_some H K ix F (m := .incsp c.binds) (s' := { s1 with len := s1.len + c.binds }) (skip := 0) rfl, List.drop_zero]
          rw [mrun_cons_some H K ix F (m := .delfp vars) (skip := 0) rfl, List.drop_zero]
          refine body_run (vars := vars) (n := c.binds) ?_ ?_ ?_ ?_ leave rest (hl.imp_left fun h => ⟨h.1, h.2.1⟩)
          · show s1.len + c.binds - 1 = _
            rw [h2.len]; omega
          · refine visible_congr fun t ht => ?_
            show (if vars ≤ t then s1.stack (t + 1) else s1.stack t) = _
            by_cases hv : vars ≤ t
            · rw [if_pos hv]; exact h3 t hv ht
            · rw [if_neg hv, h2.below t (by omega), hlow t (by omega)]
          · intro t ht
            show (if vars ≤ t then s1.stack (t + 1) else s1.stack t) = _
            rw [if_neg (by omega)]; exact h2.below t ht
          · exact h2.log
        · have hn0 : c.binds = 0 := by omega
          have hh : ∀ k, clauseHead vars c k = [.pop] := fun k => by rw [clauseHead, if_neg hn, hg]
          rw [hh]
          simp only [List.cons_append, List.nil_append]
          rw [mrun_cons_some H K ix F (m := .pop) (s' := { s1 with len := s1.len - 1 }) (skip := 0) rfl, List.drop_zero]
          refine body_run (vars := vars) (n := c.binds) ?_ ?_ ?_ ?_ leave rest (hl.imp_left fun h => ⟨h.1, h.2.1⟩)
          · show s1.len - 1 = _
            rw [h2.len, hn0]; rfl
          · refine visible_congr fun t ht => ?_
            show s1.stack t = _
            rw [h2.below t (by omega), hlow t (by omega)]
          · exact h2.below
          · exact h2.log
      · have ha : c.admits vars (bindAllIn base l) = !(g (visible (vars + c.binds) (bindAllIn base l))).falsey := by rw [Clause.admits, hg]
        simp only [ha]
        have hgp : guardPops c = List.replicate c.binds .pop := by rw [guardPops, hg]
        by_cases hn : c.binds > 0
        · have hh : ∀ k, clauseHead vars c k = [.incsp c.binds, .moveup vars, .guard (vars + c.binds) g, .brf (k + 1), .pop] := fun k => by rw [clauseHead, if_pos hn, hg]
          rw [hh]
          simp only [List.cons_append, List.nil_append, List.append_assoc]
          rw [mrun_cons_some H K ix F (m := .incsp c.binds) (s' := { s1 with len := s1.len + c.binds }) (skip := 0) rfl, List.drop_zero]
          rw [mrun_cons_some H K ix F (m := .moveup vars) (skip := 0) rfl, List.drop_zero]
          rw [mrun_cons_some H K ix F (m := .guard (vars + c.binds) g) (skip := 0) rfl, List.drop_zero]
          rw [mrun_cons_some H K ix F (m := .brf _) rfl]
          simp only [h2.len]
          have hm : ∀ t, t < vars + c.binds → (if t = vars + 1 + c.binds - 1 then s1.stack vars else if vars ≤ t ∧ t < vars + 1 + c.binds then s1.stack (t + 1) else s1.stack t) = bindAllIn base l t := by
            intro t ht
            rw [if_neg (by omega)]
            by_cases hv : vars ≤ t
            · rw [if_pos ⟨hv, by omega⟩]; exact h3 t hv ht
            · rw [if_neg (by omega), h2.below t (by omega), hlow t (by omega)]
          rw [visible_congr hm]
          simp only [Nat.add_sub_cancel, if_true]
          have hm2 : ∀ t, t < vars + c.binds → (if t = vars + 1 + c.binds then g (visible (vars + c.binds) (bindAllIn base l)) else
              if t = vars + 1 + c.binds - 1 then s1.stack vars else if vars ≤ t ∧ t < vars + 1 + c.binds then s1.stack (t + 1) else s1.stack t) = bindAllIn base l t := by
            intro t ht
            rw [if_neg (by omega)]; exact hm t ht
          have hk1 : c.binds = 1 ∧ c.pat = .bind vars ∧ cs ≠ [] := by
            rcases hkc with h | h | h
            · rw [hg] at h; simp at h
            · omega
            · exact h
          by_cases hv : (g (visible (vars + c.binds) (bindAllIn base l))).falsey = true
          · have hbv : bindAllIn base l vars = v := by
              rw [hk1.2.1, Pat.bindings] at hb
              simp at hb
              subst hb
              simp [bindAllIn]
            simp only [hv, if_true]
            have hd : List.drop ((MI.body i :: (List.replicate c.binds .pop ++ leave)).length + 1) (MI.pop :: MI.body i :: (List.replicate c.binds MI.pop ++ (leave ++ (guardPops c ++ rest)))) = guardPops c ++ rest := by
              rw [List.drop_succ_cons, ← List.append_assoc (List.replicate c.binds MI.pop)]
              exact List.drop_left (l₁ := MI.body i :: (List.replicate c.binds .pop ++ leave)) (l₂ := guardPops c ++ rest)
            rw [hd, hgp, mrun_pops]
            simp only [Bool.not_true, Bool.false_eq_true, if_false]
            refine ih _ ⟨by show vars + 1 + c.binds - c.binds = _; omega, ?_, ?_, h2.log⟩
            · exact (hm2 vars (by omega)).trans hbv
            · exact fun t ht => (hm2 t (by omega)).trans (hlow t ht)
          · simp only [Bool.not_eq_true] at hv
            simp only [hv, Bool.false_eq_true, if_false, List.drop_zero, Bool.not_false, if_true]
            rw [mrun_cons_some H K ix F (m := .pop) (skip := 0) rfl, List.drop_zero, ← List.append_assoc, ← List.cons_append]
            refine body_run (vars := vars) (n := c.binds) ?_ ?_ ?_ ?_ leave (guardPops c ++ rest) (.inr (by rw [List.length_append]; exact hl.resolve_left fun h => hk1.2.2 h.2.2))
            · show vars + 1 + c.binds - 1 = _
              omega
            · exact visible_congr hm2
            · exact fun t ht => (hm2 t (by omega)).trans (hlow t ht)
            · exact h2.log
        · have hn0 : c.binds = 0 := by omega
          have hh : ∀ k, clauseHead vars c k = [.guard (vars + c.binds) g, .brf (k + 1), .pop] := fun k => by rw [clauseHead, if_neg hn, hg]
          rw [hgp, hn0] at hl
          rw [hh, hgp, hn0]
          simp only [List.cons_append, List.nil_append, List.append_assoc, List.replicate_zero, List.append_nil, Nat.add_zero, List.length_nil, Nat.zero_add] at hl ⊢
          rw [mrun_cons_some H K ix F (m := .guard vars g) (skip := 0) rfl, List.drop_zero]
          rw [mrun_cons_some H K ix F (m := .brf _) rfl]
          simp only [h2.len, Nat.add_sub_cancel, if_true]
          have hm : visible vars s1.stack = visible vars (bindAllIn base l) := visible_congr fun t ht => by rw [h2.below t ht, hlow t ht]
          rw [hm]
          by_cases hv : (g (visible vars (bindAllIn base l))).falsey = true
          · simp only [hv, if_true, Bool.not_true, Bool.false_eq_true, if_false]
            rw [List.drop_succ_cons, ← List.cons_append, List.drop_left]
            refine ih _ ⟨rfl, ?_, ?_, h2.log⟩
            · show (if vars = vars + 1 then _ else s1.stack vars) = v
              rw [if_neg (by omega)]; exact h2.top
            · intro t ht
              show (if t = vars + 1 then _ else s1.stack t) = base t
              rw [if_neg (by omega)]; exact h2.below t ht
          · simp only [Bool.not_eq_true] at hv
            simp only [hv, Bool.false_eq_true, if_false, List.drop_zero, Bool.not_false, if_true]
            rw [mrun_cons_some H K ix F (m := .pop) (skip := 0) rfl, List.drop_zero]
            refine body_run (vars := vars) (n := 0) rfl ?_ ?_ ?_ leave rest (hl.imp_left fun h => ⟨h.1, h.2.1⟩)
            · refine visible_congr fun t ht => ?_
              show (if t = vars + 1 then _ else s1.stack t) = _
              rw [if_neg (by omega), h2.below t (by omega), hlow t (by omega)]
            · intro t ht
              show (if t = vars + 1 then _ else s1.stack t) = base t
              rw [if_neg (by omega)]; exact h2.below t ht
            · exact h2.log

end Yasl
