import Verif.Proofs.ParseBase
set_option autoImplicit false
/-! # Proofs about the parser: parameters and patterns are parsed as the grammar says, and parsing ends -/
namespace Yasl
variable {src : List Byte} {H : Stop → Prop} {cfg : ParseCfg}

theorem item_int {l : Lex} (h : l.type = .int) : l.item = .word .int l.value := by unfold Lex.item; rw [h]
theorem item_float {l : Lex} (h : l.type = .float) : l.item = .word .float l.value := by unfold Lex.item; rw [h]
theorem item_bool {l : Lex} (h : l.type = .bool) : l.item = .word .bool l.value := by unfold Lex.item; rw [h]
theorem item_id {l : Lex} (h : l.type = .id) : l.item = .word .id l.value := by unfold Lex.item; rw [h]
theorem item_str {l : Lex} (h : l.type = .str) : l.item = .str l.value l.interp := by unfold Lex.item; rw [h]

theorem parseParams_meets (n : Nat) : ∀ acc, Meets src H n (parseParams acc) (fun _ => True) false (fun _ r ts => ∃ ps, r = acc ++ ps ∧ Params ts ps) := by
  induction n with
  | zero =>
    intro acc s hi hn _
    rw [parseParams]
    have he : s.lex.type = .eof := by
      by_contra hc
      unfold Lex.mu at hn
      rw [if_neg hc] at hn
      omega
    refine Ends.curtok ?_
    rw [he]
    exact Ends.pure ((AtPos.start hi).imp (fun h => h) (by rintro _ rfl; exact ⟨[], by simp, .nil⟩))
  | succ n ih =>
    intro acc s hi hn _
    rw [parseParams]
    refine Ends.curtok ?_
    split
    · refine AtPos.name (AtPos.start hi) fun x s1 _ h1 => ?_
      have m1 := h1.lt rfl
      refine AtPos.matchTok h1 (by decide) (by decide) (fun s2 _ _ h2 => ?_) (fun _ => ?_)
      · have m2 := h2.lt rfl
        refine AtPos.last h2 (ih _) (by omega) trivial fun r s3 h3 => h3.imp (by simp) ?_
        rintro _ ⟨_, t3, rfl, ⟨_, _, rfl, ⟨_, _, rfl, rfl, rfl⟩, _, rfl, rfl⟩, ps, rfl, hp⟩
        exact ⟨.let_ x none :: ps, by simp, .letMore hp⟩
      · refine Ends.pure (h1.imp (by simp) ?_)
        rintro _ ⟨_, _, rfl, rfl, rfl⟩
        exact ⟨[.let_ x none], rfl, .let_⟩
    · split
      · rename_i hc
        refine AtPos.eatSame (AtPos.start hi) hc (by decide) (by decide) fun s1 _ h1 => ?_
        refine AtPos.name h1 fun x s2 _ h2 => ?_
        refine AtPos.matchTok h2 (by decide) (by decide) (fun s3 _ _ h3 => ?_) (fun _ => ?_)
        · have m3 := h3.lt rfl
          refine AtPos.last h3 (ih _) (by omega) trivial fun r s4 h4 => h4.imp (by simp) ?_
          rintro _ ⟨_, t3, rfl, ⟨_, _, rfl, ⟨_, _, rfl, ⟨_, _, rfl, rfl, _, rfl, rfl⟩, rfl⟩, _, rfl, rfl⟩, ps, rfl, hp⟩
          exact ⟨.const_ x none :: ps, by simp, .constMore hp⟩
        · refine Ends.pure (h2.imp (by simp) ?_)
          rintro _ ⟨_, _, rfl, ⟨_, _, rfl, rfl, _, rfl, rfl⟩, rfl⟩
          exact ⟨[.const_ x none], rfl, .const_⟩
      · exact Ends.pure ((AtPos.start hi).imp (fun h => h) (by rintro _ rfl; exact ⟨[], by simp, .nil⟩))

theorem parseInteger_meets (n : Nat) : Meets src H n parseInteger (fun s => s.lex.type = .int) true (fun _ i ts => ∃ v, ts = [.word .int v] ∧ i = getInt v) := by
  intro s hi _ ht
  unfold parseInteger
  refine Ends.getLex (AtPos.eatVal (AtPos.start hi) ht (by decide) (by decide) fun s1 _ h1 => Ends.pure (h1.imp (by simp) ?_))
  rintro _ ⟨_, _, rfl, rfl, rfl⟩
  exact ⟨_, by rw [item_int ht]; rfl, rfl⟩

theorem parseFloat_meets (n : Nat) : Meets src H n (parseFloat cfg) (fun s => s.lex.type = .float) true
    (fun _ i ts => ∃ v, ts = [.word .float v] ∧ i = cfg.strtod v) := by
  intro s hi _ ht
  unfold parseFloat
  refine Ends.getLex (AtPos.eatVal (AtPos.start hi) ht (by decide) (by decide) fun s1 _ h1 => Ends.pure (h1.imp (by simp) ?_))
  rintro _ ⟨_, _, rfl, rfl, rfl⟩
  exact ⟨_, by rw [item_float ht]; rfl, rfl⟩

theorem parseBoolean_meets (n : Nat) : Meets src H n parseBoolean (fun s => s.lex.type = .bool) true
    (fun _ i ts => ∃ v, ts = [.word .bool v] ∧ i = (v == word "true")) := by
  intro s hi _ ht
  unfold parseBoolean
  refine Ends.getLex (AtPos.eatVal (AtPos.start hi) ht (by decide) (by decide) fun s1 _ h1 => Ends.pure (h1.imp (by simp) ?_))
  rintro _ ⟨_, _, rfl, rfl, rfl⟩
  exact ⟨_, by rw [item_bool ht]; rfl, rfl⟩

theorem parsePrimitivePattern_meets (hH : ch '#' ∈ src → H .hang) (n : Nat) : Meets src H n (parsePrimitivePattern cfg) (fun _ => True) true
    (fun _ p ts => PGram cfg.strtod .key ts p) := by
  intro s hi hn _
  unfold parsePrimitivePattern
  refine Ends.curtok ?_
  have st := AtPos.start hi
  split
  · rename_i ht
    refine AtPos.call st (parseInteger_meets n) hn ht fun i s1 h1 => Ends.pure (h1.imp (by simp) ?_)
    rintro _ ⟨_, _, rfl, rfl, v, rfl, rfl⟩; exact .int
  · rename_i ht
    refine AtPos.call st (parseFloat_meets n) hn ht fun i s1 h1 => Ends.pure (h1.imp (by simp) ?_)
    rintro _ ⟨_, _, rfl, rfl, v, rfl, rfl⟩; exact .float
  · rename_i ht
    refine AtPos.call st (parseBoolean_meets n) hn ht fun i s1 h1 => Ends.pure (h1.imp (by simp) ?_)
    rintro _ ⟨_, _, rfl, rfl, v, rfl, rfl⟩; exact .bool
  · rename_i ht
    refine AtPos.eatSame st ht (by decide) (by decide) fun s1 _ h1 => Ends.curtok ?_
    have m1 := h1.mu
    split
    · rename_i ht2
      refine AtPos.call h1 (parseInteger_meets n) (by omega) ht2 fun i s1 h1 => Ends.pure (h1.imp (by simp) ?_)
      rintro _ ⟨_, _, rfl, ⟨_, _, rfl, rfl, _, rfl, rfl⟩, v, rfl, rfl⟩; exact .negInt
    · split
      · rename_i ht2
        refine AtPos.call h1 (parseFloat_meets n) (by omega) ht2 fun i s1 h1 => Ends.pure (h1.imp (by simp) ?_)
        rintro _ ⟨_, _, rfl, ⟨_, _, rfl, rfl, _, rfl, rfl⟩, v, rfl, rfl⟩; exact .negFloat
      · exact Ends.error
  · rename_i ht
    refine Ends.getLex ?_
    split
    · rename_i hint
      split
      · exact Ends.error
      · exact hH (hi.interp hint)
    · rename_i hint
      refine AtPos.eatVal st ht (by decide) (by decide) fun s1 _ h1 => Ends.pure (h1.imp (by simp) ?_)
      rintro _ ⟨_, _, rfl, rfl, rfl⟩
      rw [item_str ht]
      simp only [Bool.not_eq_true] at hint
      rw [hint]
      exact .str
  · rename_i ht
    refine AtPos.eatSame st ht (by decide) (by decide) fun s1 _ h1 => AtPos.name h1 fun x s2 _ h2 => Ends.pure (h2.imp (by simp) ?_)
    rintro _ ⟨_, _, rfl, ⟨_, _, rfl, rfl, _, rfl, rfl⟩, rfl⟩; exact .dot
  · rename_i ht
    refine AtPos.name st fun x s2 _ h2 => ?_
    split
    · rename_i p hp
      refine Ends.pure (h2.imp (by simp) ?_)
      rintro _ ⟨_, _, rfl, rfl, rfl⟩
      have h3 := List.find?_some hp
      have h4 := List.mem_of_find?_eq_some hp
      have h3 : word p.1 = x := by simpa using h3
      subst h3
      simp only [patTypeNames, List.mem_cons, List.not_mem_nil, or_false] at h4
      rcases h4 with rfl | rfl | rfl | rfl | rfl | rfl
      exacts [.tbool, .tint, .tfloat, .tstr, .tlist, .ttable]
    · exact Ends.error
  · exact Ends.error

/-- The four functions for patterns. -/
structure PatSpec (src : List Byte) (H : Stop → Prop) (cfg : ParseCfg) (n : Nat) : Prop where
  single : Meets src H n (parsePatternSingle cfg) (fun _ => True) true (fun _ p ts => PGram cfg.strtod .single ts p)
  pairs : ∀ acc, Meets src H n (parseTablePats cfg acc) (fun _ => True) false (fun _ r ts => ∃ ps, r.2 = acc ++ ps ∧ PGram cfg.strtod .pairs ts (r.1, ps))
  pats : ∀ acc, Meets src H n (parseListPats cfg acc) (fun _ => True) false (fun _ r ts => ∃ ps, r.2 = acc ++ ps ∧ PGram cfg.strtod .pats ts (r.1, ps))
  pat : Meets src H n (parsePattern cfg) (fun _ => True) true (fun _ p ts => PGram cfg.strtod .pat ts p)

theorem pattern_meets (hH : ch '#' ∈ src → H .hang) : ∀ n, PatSpec src H cfg n := by
  intro n
  induction n using Nat.strong_induction_on with
  | _ n ih =>
  have prim := fun n => parsePrimitivePattern_meets (cfg := cfg) hH n
  have single : Meets src H n (parsePatternSingle cfg) (fun _ => True) true (fun _ p ts => PGram cfg.strtod .single ts p) := by
    intro s hi hn _
    rw [parsePatternSingle]
    refine Ends.curtok ?_
    have st := AtPos.start hi
    split
    · rename_i ht
      refine AtPos.eatSame st ht (by decide) (by decide) fun s1 _ h1 => Ends.pure (h1.imp (by simp) ?_)
      rintro _ ⟨_, _, rfl, rfl, _, rfl, rfl⟩; exact .any
    · rename_i ht
      refine AtPos.eatSame st ht (by decide) (by decide) fun s1 _ h1 => Ends.pure (h1.imp (by simp) ?_)
      rintro _ ⟨_, _, rfl, rfl, _, rfl, rfl⟩; exact .undef
    · rename_i ht
      refine AtPos.eatSame st ht (by decide) (by decide) fun s1 _ h1 => AtPos.name h1 fun x s2 _ h2 => Ends.pure (h2.imp (by simp) ?_)
      rintro _ ⟨_, _, rfl, ⟨_, _, rfl, rfl, _, rfl, rfl⟩, rfl⟩; exact .let_
    · rename_i ht
      refine AtPos.eatSame st ht (by decide) (by decide) fun s1 _ h1 => AtPos.name h1 fun x s2 _ h2 => Ends.pure (h2.imp (by simp) ?_)
      rintro _ ⟨_, _, rfl, ⟨_, _, rfl, rfl, _, rfl, rfl⟩, rfl⟩; exact .const_
    · rename_i ht
      refine AtPos.eatSame st ht (by decide) (by decide) fun s1 _ h1 => ?_
      have m1 := h1.lt rfl
      refine AtPos.matchTok h1 (by decide) (by decide) (fun s2 _ _ h2 => ?_) (fun hnd => ?_)
      · refine AtPos.eat h2 (by decide) (by decide) fun s3 h3 => Ends.pure (h3.imp (by simp) ?_)
        rintro _ ⟨_, _, rfl, ⟨_, _, rfl, ⟨_, _, rfl, rfl, _, rfl, rfl⟩, _, rfl, rfl⟩, _, rfl, rfl⟩
        exact .tableRest
      · refine Ends.curtok ?_
        split
        · refine AtPos.call h1 (prim (n - 1)) (by omega) trivial fun k s2 h2 => ?_
          refine AtPos.eat h2 (by decide) (by decide) fun s3 h3 => ?_
          have m3 := h3.lt (by simp)
          refine AtPos.call h3 (ih (n - 1) (by omega)).pat (by omega) trivial fun p s4 h4 => ?_
          refine AtPos.newlines h4 fun s5 h5 _ => ?_
          have m5 := h5.lt (by simp)
          refine AtPos.call h5 ((ih (n - 1) (by omega)).pairs _) (by omega) trivial fun r s6 h6 => ?_
          refine AtPos.newlines h6 fun s7 h7 _ => ?_
          refine AtPos.eat h7 (by decide) (by decide) fun s8 h8 => Ends.pure (h8.imp (by simp) ?_)
          rintro _ ⟨_, _, rfl, ⟨_, _, rfl, ⟨_, _, rfl, ⟨_, _, rfl, ⟨_, _, rfl, ⟨_, _, rfl, ⟨_, _, rfl, ⟨_, _, rfl, rfl, _, rfl, rfl⟩, hk⟩, _, rfl, rfl⟩, hp⟩, hn1⟩,
            ps, hr, hps⟩, hn2⟩, _, rfl, rfl⟩
          rw [hr]
          simpa using PGram.table hk hp hn1 hps hn2
        · refine AtPos.eat h1 (by decide) (by decide) fun s3 h3 => Ends.pure (h3.imp (by simp) ?_)
          rintro _ ⟨_, _, rfl, ⟨_, _, rfl, rfl, _, rfl, rfl⟩, _, rfl, rfl⟩
          exact .tableEmpty
    · rename_i ht
      refine AtPos.eatSame st ht (by decide) (by decide) fun s1 _ h1 => ?_
      have m1 := h1.lt rfl
      refine AtPos.matchTok h1 (by decide) (by decide) (fun s2 _ _ h2 => ?_) (fun hnd => ?_)
      · refine AtPos.eat h2 (by decide) (by decide) fun s3 h3 => Ends.pure (h3.imp (by simp) ?_)
        rintro _ ⟨_, _, rfl, ⟨_, _, rfl, ⟨_, _, rfl, rfl, _, rfl, rfl⟩, _, rfl, rfl⟩, _, rfl, rfl⟩
        exact .listRest
      · refine Ends.curtok ?_
        split
        · refine AtPos.call h1 (ih (n - 1) (by omega)).pat (by omega) trivial fun p s4 h4 => ?_
          refine AtPos.newlines h4 fun s5 h5 _ => ?_
          have m5 := h5.lt (by simp)
          refine AtPos.call h5 ((ih (n - 1) (by omega)).pats _) (by omega) trivial fun r s6 h6 => ?_
          refine AtPos.newlines h6 fun s7 h7 _ => ?_
          refine AtPos.eat h7 (by decide) (by decide) fun s8 h8 => Ends.pure (h8.imp (by simp) ?_)
          rintro _ ⟨_, _, rfl, ⟨_, _, rfl, ⟨_, _, rfl, ⟨_, _, rfl, ⟨_, _, rfl, ⟨_, _, rfl, rfl, _, rfl, rfl⟩, hp⟩, hn1⟩, ps, hr, hps⟩, hn2⟩, _, rfl, rfl⟩
          rw [hr]
          simpa using PGram.list hp hn1 hps hn2
        · refine AtPos.eat h1 (by decide) (by decide) fun s3 h3 => Ends.pure (h3.imp (by simp) ?_)
          rintro _ ⟨_, _, rfl, ⟨_, _, rfl, rfl, _, rfl, rfl⟩, _, rfl, rfl⟩
          exact .listEmpty
    · rename_i ht
      refine AtPos.eatSame st ht (by decide) (by decide) fun s1 _ h1 => ?_
      have m1 := h1.lt rfl
      refine AtPos.call h1 (ih (n - 1) (by omega)).pat (by omega) trivial fun p s2 h2 => ?_
      refine AtPos.eat h2 (by decide) (by decide) fun s3 h3 => Ends.pure (h3.imp (by simp) ?_)
      rintro _ ⟨_, _, rfl, ⟨_, _, rfl, ⟨_, _, rfl, rfl, _, rfl, rfl⟩, hp⟩, _, rfl, rfl⟩
      simpa using PGram.paren hp
    · refine AtPos.last st (prim n) hn trivial fun p s1 h1 => h1.imp (by simp) ?_
      rintro _ ⟨_, _, rfl, rfl, h⟩
      exact .key h
  refine ⟨single, ?_, ?_, ?_⟩
  · intro acc s hi hn _
    rw [parseTablePats]
    have st := AtPos.start hi
    refine AtPos.matchTok st (by decide) (by decide) (fun s1 _ _ h1 => ?_) (fun _ => ?_)
    · have m1 := h1.lt rfl
      refine AtPos.matchTok h1 (by decide) (by decide) (fun s2 _ _ h2 => Ends.pure (h2.imp (by simp) ?_)) (fun _ => ?_)
      · rintro _ ⟨_, _, rfl, ⟨_, _, rfl, rfl, _, rfl, rfl⟩, _, rfl, rfl⟩
        exact ⟨[], by simp, .pairsRest⟩
      · refine AtPos.call h1 (prim (n - 1)) (by omega) trivial fun k s2 h2 => ?_
        refine AtPos.eat h2 (by decide) (by decide) fun s3 h3 => ?_
        have m3 := h3.lt (by simp)
        refine AtPos.call h3 (ih (n - 1) (by omega)).pat (by omega) trivial fun p s4 h4 => ?_
        have m4 := h4.lt (by simp)
        refine AtPos.last h4 ((ih (n - 1) (by omega)).pairs _) (by omega) trivial fun r s6 h6 => h6.imp (by simp) ?_
        rintro _ ⟨_, _, rfl, ⟨_, _, rfl, ⟨_, _, rfl, ⟨_, _, rfl, ⟨_, _, rfl, rfl, _, rfl, rfl⟩, hk⟩, _, rfl, rfl⟩, hp⟩, ps, hr, hps⟩
        exact ⟨k :: p :: ps, by simp [hr], by simpa using PGram.pairs hk hp hps⟩
    · refine Ends.pure (st.imp (by simp) ?_)
      rintro _ rfl
      exact ⟨[], by simp, .pairsEnd⟩
  · intro acc s hi hn _
    rw [parseListPats]
    have st := AtPos.start hi
    refine AtPos.matchTok st (by decide) (by decide) (fun s1 _ _ h1 => ?_) (fun _ => ?_)
    · have m1 := h1.lt rfl
      refine AtPos.matchTok h1 (by decide) (by decide) (fun s2 _ _ h2 => Ends.pure (h2.imp (by simp) ?_)) (fun _ => ?_)
      · rintro _ ⟨_, _, rfl, ⟨_, _, rfl, rfl, _, rfl, rfl⟩, _, rfl, rfl⟩
        exact ⟨[], by simp, .patsRest⟩
      · refine AtPos.call h1 (ih (n - 1) (by omega)).pat (by omega) trivial fun p s4 h4 => ?_
        have m4 := h4.lt (by simp)
        refine AtPos.last h4 ((ih (n - 1) (by omega)).pats _) (by omega) trivial fun r s6 h6 => h6.imp (by simp) ?_
        rintro _ ⟨_, _, rfl, ⟨_, _, rfl, ⟨_, _, rfl, rfl, _, rfl, rfl⟩, hp⟩, ps, hr, hps⟩
        exact ⟨p :: ps, by simp [hr], by simpa using PGram.pats hp hps⟩
    · refine Ends.pure (st.imp (by simp) ?_)
      rintro _ rfl
      exact ⟨[], by simp, .patsEnd⟩
  · intro s hi hn _
    rw [parsePattern]
    refine AtPos.call (AtPos.start hi) single hn trivial fun p s1 h1 => ?_
    have m1 := h1.lt rfl
    refine AtPos.matchTok h1 (by decide) (by decide) (fun s2 _ _ h2 => ?_) (fun _ => ?_)
    · have m2 := h2.lt rfl
      refine AtPos.call h2 (ih (n - 1) (by omega)).pat (by omega) trivial fun q s3 h3 => Ends.pure (h3.imp (by simp) ?_)
      rintro _ ⟨_, _, rfl, ⟨_, _, rfl, ⟨_, _, rfl, rfl, hp⟩, _, rfl, rfl⟩, hq⟩
      simpa using PGram.alt hp hq
    · refine Ends.pure (h1.imp (by simp) ?_)
      rintro _ ⟨_, _, rfl, rfl, hp⟩
      exact .one hp

end Yasl
