import Verif.Props.Table
import Verif.Model.Globals
set_option autoImplicit false
/-!
# C59 — globals

`GSpec` (in `Verif.Spec.Globals`) is what the user knows of the globals; the model works on the two hash tables of the code.
-/
namespace Yasl

/-- a table that is a history of assignments to strings -/
structure StrTable (f : Nat) (t : Table) (L : List TOp) : Prop where
  run : Table.new.run f L = some t
  sets : ∀ op ∈ L, op.IsSet
  oks : ∀ op ∈ L, op.OK

theorem StrTable.nil {f : Nat} : StrTable f Table.new [] := ⟨rfl, by simp, by simp⟩

theorem StrTable.search {f : Nat} {t : Table} {L : List TOp} (h : StrTable f t L) (hf : 2 ^ 33 ≤ f) (hl : L.length ≤ 2 ^ 29) (n : List Byte) :
    t.search f (.str n) = some ((specOf L (.str n)).getD .end_) := by
  obtain ⟨t', h1, h2⟩ := C01_assignments_partial L h.sets h.oks hl f hf
  rw [h.run] at h1
  cases h1
  exact h2 _ trivial

theorem StrTable.insert {f : Nat} {t : Table} {L : List TOp} (h : StrTable f t L) (hf : 2 ^ 33 ≤ f) (hl : L.length + 1 ≤ 2 ^ 29)
    (n : List Byte) (v : Val) (hv : LiveVal v) :
    ∃ t', t.insertFast f (.str n) v = some t' ∧ t.insert f (.str n) v = some (t', true) ∧ StrTable f t' (L ++ [.set (.str n) v]) := by
  have hs : ∀ op ∈ L ++ [TOp.set (.str n) v], op.IsSet := by
    intro op ho
    rcases List.mem_append.1 ho with ho | ho
    · exact h.sets op ho
    · rw [List.mem_singleton.1 ho]; trivial
  have hk : ∀ op ∈ L ++ [TOp.set (.str n) v], op.OK := by
    intro op ho
    rcases List.mem_append.1 ho with ho | ho
    · exact h.oks op ho
    · rw [List.mem_singleton.1 ho]; exact ⟨.inl trivial, hv⟩
  obtain ⟨t', h1, -⟩ := C01_assignments_partial _ hs hk (by simpa using hl) f hf
  have h1' := h1
  rw [run_append, h.run] at h1
  have h2 : t.step f (.set (.str n) v) = some t' := by
    simpa [Table.run] using h1
  have h3 : t.insert f (.str n) v = (t.insertFast f (.str n) v).map (·, true) := rfl
  simp only [Table.step, h3, Option.map_map, Function.comp_def] at h2
  have h4 : t.insertFast f (.str n) v = some t' := by simpa using h2
  exact ⟨t', h4, by rw [h3, h4]; rfl, h1', hs, hk⟩

theorem StrTable.count {f : Nat} {t : Table} {L : List TOp} (h : StrTable f t L) (hf : 2 ^ 33 ≤ f) (hl : L.length ≤ 2 ^ 29) :
    t.count ≤ 2 ^ 29 := by
  have hrp : ∀ (m : Val → Option Val) (ops : List TOp), (∀ op ∈ ops, op.IsSet) → removesPresent m ops ∧ removals ops = 0 := by
    intro m ops
    induction ops generalizing m with
    | nil => intro _; exact ⟨trivial, rfl⟩
    | cons op ops ih =>
      intro h
      cases op with
      | set k v =>
        have := ih ((TOp.set k v).apply m) (fun o ho => h o (by simp [ho]))
        exact ⟨this.1, by simpa [removals] using this.2⟩
      | rm k => exact absurd (h (.rm k) (by simp)) (by simp [TOp.IsSet])
  obtain ⟨h1, h2⟩ := hrp (fun _ => none) L h.sets
  obtain ⟨t', hr, hg⟩ := run_good (N := 2 ^ 29) (f := f) (le_refl _) (by omega) L (R := 0) (fun _ => none)
    (new_good _) new_spec.2 h.oks h1 (by omega) (by simpa [Table.new] using hl)
  rw [h.run] at hr
  cases hr
  exact hg.countN

theorem specOf_snoc_set (L : List TOp) (n x : List Byte) (v : Val) :
    specOf (L ++ [.set (.str n) v]) (.str x) = if x = n then some v else specOf L (.str x) := by
  simp [specOf, specFrom, TOp.apply, Val.hashable]

/-- what the code's tables say about the user's view -/
structure GRep (f k : Nat) (g : GState) (s : GSpec) : Prop where
  stack : g.stack = s.stack
  log : g.log = s.log
  live : ∀ v ∈ s.stack, LiveVal v
  scope : ∃ L, StrTable f g.scope L ∧ L.length ≤ k ∧ ∀ n, match s.decls n with
    | none => specOf L (.str n) = none
    | some c => ∃ i, specOf L (.str n) = some (.int i) ∧ isConst i = c
  globals : ∃ L, StrTable f g.globals L ∧ L.length ≤ k ∧ ∀ n, specOf L (.str n) = s.vals n
  liveVals : ∀ n v, s.vals n = some v → LiveVal v

theorem GRep.init {f : Nat} : GRep f 0 GState.init GSpec.empty := by
  refine ⟨rfl, rfl, by simp [GSpec.empty], ⟨[], .nil, by simp, fun n => rfl⟩, ⟨[], .nil, by simp, fun n => rfl⟩, ?_⟩
  intro n v h
  simp [GSpec.empty] at h

theorem isConst_small {c : Nat} (h : c ≤ 2 ^ 29) : isConst (BitVec.ofNat 64 c) = false := by
  have h0 : (0x8000000000000000#64 : BitVec 64) &&& BitVec.ofNat 64 c = 0 := by
    apply BitVec.eq_of_toNat_eq
    have h1 : c % 2 ^ 64 = c := Nat.mod_eq_of_lt (by omega)
    have h2 : c.testBit 63 = false := Nat.testBit_lt_two_pow (by omega)
    apply Nat.eq_of_testBit_eq
    intro i
    have h3 : (0x8000000000000000#64 : BitVec 64).toNat = 2 ^ 63 := rfl
    have h4 : (BitVec.ofNat 64 c).toNat = c := by rw [BitVec.toNat_ofNat, h1]
    rw [BitVec.toNat_and, Nat.testBit_and, h3, h4, Nat.testBit_two_pow]
    by_cases hi : 63 = i
    · subst hi; simp [h2]
    · simp [hi]
  rw [isConst, h0]; rfl

theorem isConst_not (i : BitVec 64) : isConst (~~~i) = !isConst i := by
  have key : ∀ v : BitVec 64, isConst v = v.msb := by
    intro v
    rw [isConst, BitVec.msb_eq_getLsbD_last]
    cases h : v.getLsbD (64 - 1) with
    | true =>
      have : (0x8000000000000000#64 &&& v) ≠ 0 := by
        intro h0
        have := congrArg (fun w => BitVec.getLsbD w 63) h0
        simp at this
        simp [this] at h
      simpa using this
    | false =>
      have : (0x8000000000000000#64 &&& v) = 0 := by
        apply BitVec.eq_of_getLsbD_eq
        intro j hj
        have h3 : (0x8000000000000000#64 : BitVec 64) = BitVec.twoPow 64 63 := by decide
        rw [BitVec.getLsbD_and, h3, BitVec.getLsbD_twoPow]
        by_cases hj' : 63 = j
        · subst hj'; simp at h ⊢; exact h
        · simp [hj']
      simp [this]
  rw [key, key, BitVec.msb_not]; simp

/-- the relation after one more assignment to the globals -/
theorem GRep.store {f k : Nat} {g : GState} {s : GSpec} (h : GRep f k g s) (hf : 2 ^ 33 ≤ f) (hk : k + 1 ≤ 2 ^ 29) (n : List Byte)
    (hne : s.stack ≠ []) (l : List Bool) :
    ∃ t, g.globals.insertFast f (.str n) (popTop g.stack).1 = some t ∧
      GRep f (k + 1) ⟨g.scope, t, (popTop g.stack).2, l⟩
        ⟨s.decls, fun x => if x = n then s.stack.head? else s.vals x, s.stack.tail, l⟩ := by
  obtain ⟨L, hL, hlen, hv⟩ := h.globals
  obtain ⟨v, rest, hs⟩ := List.exists_cons_of_ne_nil hne
  have hlive : LiveVal v := h.live v (by simp [hs])
  obtain ⟨t, h1, -, h3⟩ := hL.insert hf (by omega) n v hlive
  have htop : (popTop g.stack) = (v, rest) := by rw [h.stack, hs]; rfl
  refine ⟨t, by rw [htop]; exact h1, by rw [htop, hs]; rfl, rfl, fun x hx => h.live x (by rw [hs] at hx ⊢; exact List.mem_cons_of_mem _ hx), ?_, ?_, ?_⟩
  · obtain ⟨L', hL', hlen', hv'⟩ := h.scope
    exact ⟨L', hL', by omega, hv'⟩
  · refine ⟨_, h3, by simpa using hlen, fun x => ?_⟩
    rw [specOf_snoc_set, hv x, hs]; rfl
  · intro x w hw
    simp only [hs, List.head?_cons] at hw
    by_cases hx : x = n
    · simp only [hx, if_true, Option.some.injEq] at hw; exact hw ▸ hlive
    · simp only [hx, if_false] at hw; exact h.liveVals x w hw

theorem GRep.mono {f k k' : Nat} {g : GState} {s : GSpec} (h : GRep f k g s) (hk : k ≤ k') : GRep f k' g s := by
  obtain ⟨h1, h2, h3, ⟨L, h4, h5, h6⟩, ⟨L', h7, h8, h9⟩, h10⟩ := h
  exact ⟨h1, h2, h3, ⟨L, h4, by omega, h6⟩, ⟨L', h7, by omega, h9⟩, h10⟩

theorem gstep_spec {f k : Nat} {g : GState} {s : GSpec} (h : GRep f k g s) (hf : 2 ^ 33 ≤ f) (hk : k + 1 ≤ 2 ^ 29) (op : GOp)
    (hp : s.Proper [op]) : ∃ g', g.step f op = some g' ∧ GRep f (k + 1) g' (s.step op) := by
  have hm := h.mono (Nat.le_succ k)
  cases op with
  | push v =>
    refine ⟨_, rfl, ⟨by rw [h.stack]; rfl, hm.log, ?_, hm.scope, hm.globals, hm.liveVals⟩⟩
    intro w hw
    rcases List.mem_cons.1 hw with rfl | hw
    · exact hp.1
    · exact h.live w hw
  | decl n =>
    obtain ⟨L, hL, hlen, hd⟩ := h.scope
    obtain ⟨t, -, h2, h3⟩ := hL.insert hf (by omega) n (.int (BitVec.ofNat 64 g.scope.count)) (by simp [LiveVal])
    refine ⟨{ g with scope := t, log := true :: g.log }, by simp [GState.step, GState.declGlobal, h2],
      ⟨h.stack, by simp [h.log, GSpec.step], h.live, ⟨_, h3, by simpa using hlen, fun x => ?_⟩, hm.globals, h.liveVals⟩⟩
    rw [specOf_snoc_set]
    by_cases hx : x = n
    · simp only [hx, GSpec.step, if_true]
      exact ⟨_, rfl, isConst_small (hL.count hf (by omega))⟩
    · simp only [hx, GSpec.step, if_false]
      exact hd x
  | makeConst n =>
    obtain ⟨L, hL, hlen, hd⟩ := h.scope
    have hn := hd n
    have hdecl : s.decls n = some false := hp.1
    rw [hdecl] at hn
    obtain ⟨i, hi, hc⟩ := hn
    have hs : g.scope.search f (.str n) = some (.int i) := by rw [hL.search hf (by omega), hi]; rfl
    obtain ⟨t, -, h2, h3⟩ := hL.insert hf (by omega) n (.int (~~~i)) (by simp [LiveVal])
    refine ⟨{ g with scope := t }, by simp [GState.step, GState.makeConst, hs, h2],
      ⟨h.stack, h.log, h.live, ⟨_, h3, by simpa using hlen, fun x => ?_⟩, hm.globals, h.liveVals⟩⟩
    rw [specOf_snoc_set]
    by_cases hx : x = n
    · simp only [hx, GSpec.step, if_true]
      exact ⟨_, rfl, by rw [isConst_not, hc]; rfl⟩
    · simp only [hx, GSpec.step, if_false]
      exact hd x
  | set n =>
    obtain ⟨L, hL, hlen, hd⟩ := h.scope
    have hsr := hL.search hf (by omega) n
    have hn := hd n
    cases hdn : s.decls n with
    | none =>
      rw [hdn] at hn
      refine ⟨{ g with log := false :: g.log }, by simp [GState.step, GState.setGlobal, hsr, hn, Val.tag], ?_⟩
      have : s.step (.set n) = { s with log := false :: s.log } := by simp [GSpec.step, hdn]
      rw [this]
      exact ⟨h.stack, by simp [h.log], h.live, hm.scope, hm.globals, h.liveVals⟩
    | some c =>
      rw [hdn] at hn
      obtain ⟨i, hi, hc⟩ := hn
      rw [hi] at hsr
      cases c with
      | true =>
        refine ⟨{ g with log := false :: g.log }, by simp [GState.step, GState.setGlobal, hsr, hc, Val.tag], ?_⟩
        have : s.step (.set n) = { s with log := false :: s.log } := by simp [GSpec.step, hdn]
        rw [this]
        exact ⟨h.stack, by simp [h.log], h.live, hm.scope, hm.globals, h.liveVals⟩
      | false =>
        obtain ⟨t, h1, h2⟩ := h.store hf hk n hp.1 (true :: s.log)
        refine ⟨_, by simp [GState.step, GState.setGlobal, hsr, hc, Val.tag, h1]; rfl, ?_⟩
        have : s.step (.set n) = ⟨s.decls, fun x => if x = n then s.stack.head? else s.vals x, s.stack.tail, true :: s.log⟩ := by
          simp [GSpec.step, hdn]
        rw [this, h.log]
        exact h2
  | load n =>
    obtain ⟨L, hL, hlen, hv⟩ := h.globals
    have hsr := hL.search hf (by omega) n
    rw [hv n] at hsr
    cases hvn : s.vals n with
    | none =>
      rw [hvn] at hsr
      refine ⟨{ g with log := false :: g.log }, by simp [GState.step, GState.loadGlobal, hsr, Val.tag], ?_⟩
      have : s.step (.load n) = { s with log := false :: s.log } := by simp [GSpec.step, hvn]
      rw [this]
      exact ⟨h.stack, by simp [h.log], h.live, hm.scope, hm.globals, h.liveVals⟩
    | some v =>
      rw [hvn] at hsr
      have hlv := h.liveVals n v hvn
      have htag : v.tag ≠ .end_ := by
        intro ht; cases v <;> simp [Val.tag] at ht
        exact hlv.2 rfl
      refine ⟨{ g with stack := v :: g.stack, log := true :: g.log }, by simp [GState.step, GState.loadGlobal, hsr, htag], ?_⟩
      have : s.step (.load n) = { s with stack := v :: s.stack, log := true :: s.log } := by simp [GSpec.step, hvn]
      rw [this]
      refine ⟨by simp [h.stack], by simp [h.log], ?_, hm.scope, hm.globals, h.liveVals⟩
      intro w hw
      rcases List.mem_cons.1 hw with rfl | hw
      · exact hlv
      · exact h.live w hw
  | gstore n =>
    obtain ⟨t, h1, h2⟩ := h.store hf hk n hp.1 s.log
    refine ⟨_, by simp [GState.step, GState.gstore, h1]; rfl, ?_⟩
    rw [h.log]
    exact h2
  | gload n =>
    obtain ⟨L, hL, hlen, hv⟩ := h.globals
    have hsr := hL.search hf (by omega) n
    rw [hv n] at hsr
    obtain ⟨v, hvn⟩ := Option.isSome_iff_exists.1 hp.1
    rw [hvn] at hsr
    refine ⟨{ g with stack := v :: g.stack }, by simp [GState.step, GState.gload, hsr], ?_⟩
    have : s.step (.gload n) = { s with stack := v :: s.stack } := by simp [GSpec.step, hvn]
    rw [this]
    refine ⟨by simp [h.stack], h.log, ?_, hm.scope, hm.globals, h.liveVals⟩
    intro w hw
    rcases List.mem_cons.1 hw with rfl | hw
    · exact h.liveVals n w hvn
    · exact h.live w hw

theorem grun_spec {f : Nat} (hf : 2 ^ 33 ≤ f) : ∀ (ops : List GOp) {k : Nat} {g : GState} {s : GSpec}, GRep f k g s →
    k + ops.length ≤ 2 ^ 29 → s.Proper ops → ∃ g', g.run f ops = some g' ∧ GRep f (k + ops.length) g' (s.run ops)
  | [], _, g, _, h, _, _ => ⟨g, rfl, h⟩
  | op :: ops, k, g, s, h, hk, hp => by
    simp only [List.length_cons] at hk
    obtain ⟨g1, h1, h2⟩ := gstep_spec h hf (by omega) op ⟨hp.1, trivial⟩
    obtain ⟨g2, h3, h4⟩ := grun_spec hf ops h2 (by omega) hp.2
    refine ⟨g2, by simp [GState.run, h1, h3], ?_⟩
    have : k + (op :: ops).length = k + 1 + ops.length := by simp; omega
    rw [this]
    exact h4

/-- C59: every history of up to 2^29 operations on globals completes, with the stack and the results the specification gives: a load pushes
the last value set, a set of an undeclared or constant global is an error without effect.
Missing from the full property: `undef` as a value, where it is false (`C59_undef_lost`), reading a global without a value from compiled code
(`C59_unset_reads_end`), and more than 2^29 operations. -/
theorem C59_globals_partial (ops : List GOp) (hp : GSpec.empty.Proper ops) (hlen : ops.length ≤ 2 ^ 29) (f : Nat) (hf : 2 ^ 33 ≤ f) :
    ∃ g, GState.init.run f ops = some g ∧ g.stack = (GSpec.empty.run ops).stack ∧ g.log = (GSpec.empty.run ops).log := by
  obtain ⟨g, h1, h2⟩ := grun_spec hf ops GRep.init (by omega) hp
  exact ⟨g, h1, h2.stack, h2.log⟩

/-- a refused set changes nothing else: the code's tables and stack are the same afterwards -/
theorem C59_refused (f : Nat) (g g' : GState) (n : List Byte) (h : g.setGlobal f n = some g') (hl : g'.log = false :: g.log) :
    g' = { g with log := false :: g.log } := by
  unfold GState.setGlobal at h
  rcases ho : g.scope.search f (.str n) with _ | v
  · simp [ho] at h
  · rw [ho] at h
    simp only [Option.bind_some] at h
    split at h
    · exact (Option.some.inj h).symm
    · split at h
      · split at h
        · exact (Option.some.inj h).symm
        · obtain ⟨t, -, rfl⟩ := Option.map_eq_some_iff.1 h
          simp at hl
      · simp at h

/-- the hypotheses are met: declared, refused before the declaration, set twice, constant, loaded, and used from code -/
def demoGlobals : List GOp :=
  [.push (.int 1), .set [120], .decl [120], .set [120], .push (.int 2), .set [120], .load [120], .decl [121], .gstore [121], .makeConst [121],
   .push (.int 3), .set [121], .gload [121], .load [122]]
example : GSpec.empty.Proper demoGlobals := by simp [demoGlobals, GSpec.Proper, GSpec.step, GSpec.empty]
example : (GSpec.empty.run demoGlobals).stack = [.int 2, .int 3] ∧
    (GSpec.empty.run demoGlobals).log = [false, false, true, true, true, true, true, false] := by decide

/-- C59, constants: declaring a constant global again with `YASL_declglobal` makes it assignable. -/
theorem C59_redeclared_const (f : Nat) (hf : 2 ^ 33 ≤ f) :
    ∃ g, GState.init.run f [.decl [120], .makeConst [120], .decl [120], .push (.int 7), .set [120]] = some g ∧ g.log = [true, true, true] := by
  obtain ⟨g, h1, h2⟩ := grun_spec hf [.decl [120], .makeConst [120], .decl [120], .push (.int 7), .set [120]] (GRep.init (f := f)) (by decide)
    (by simp [GSpec.Proper, GSpec.step, GSpec.empty])
  exact ⟨g, h1, by rw [h2.log]; decide⟩

/-- C59 fails for `undef`: after `a = undef; B = 1` (the two names have the same hash) the value of `a` is gone — loading it is an error. -/
theorem C59_undef_lost :
    (GState.init.run 100 [.decl [97], .decl [66], .push .undef, .set [97], .load [97], .push (.int 1), .set [66], .load [97]]).map
      (fun g => (g.stack, g.log)) = some ([.undef], [false, true, true, true, true, true]) := by
  decide +kernel

/-- C59, reading a global that is declared and was never set: from C it is an error, in compiled code it gives the internal value `end_`. -/
theorem C59_unset_reads_end :
    (GState.init.run 100 [.decl [120], .load [120], .gload [120]]).map (fun g => (g.stack, g.log)) = some ([.end_], [false, true]) := by
  decide +kernel

end Yasl
