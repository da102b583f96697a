import Verif.Model.Consts
import Verif.Model.VM
import Verif.Props.Table
import Verif.Proofs.CompileTop
set_option autoImplicit false
/-! # Literals: C31 -/
namespace Yasl

/-! ## The hash table is the association list of `Verif.Model.Compile` -/

/-- The insertions that lead to a pool. -/
def poolOps (p : List Val) : List TOp := p.zipIdx.map fun q => .set q.1 (.int (BitVec.ofNat 64 q.2))

theorem poolOps_snoc (p : List Val) (v : Val) : poolOps (p ++ [v]) = poolOps p ++ [.set v (.int (BitVec.ofNat 64 p.length))] := by
  simp [poolOps, List.zipIdx_append]

theorem specOf_snoc (ops : List TOp) (op : TOp) : specOf (ops ++ [op]) = op.apply (specOf ops) := by
  simp [specOf, specFrom]

theorem idxOf?_snoc (p : List Val) (u v : Val) :
    (p ++ [u]).idxOf? v = match p.idxOf? v with
      | some i => some i
      | none => if u = v then some p.length else none := by
  induction p with
  | nil => by_cases h : u = v <;> simp [h]
  | cons a p ih =>
    rw [List.cons_append, List.idxOf?_cons, List.idxOf?_cons, ih]
    by_cases h : a = v
    · simp [h]
    · simp only [beq_iff_eq, h, if_false]
      cases hp : p.idxOf? v with
      | some i => simp
      | none => by_cases h' : u = v <;> simp [h']

theorem specOf_poolOps (p : List Val) (hn : p.Nodup) (hg : ∀ v ∈ p, GoodKey v) (v : Val) :
    specOf (poolOps p) v = (p.idxOf? v).map fun i => .int (BitVec.ofNat 64 i) := by
  induction p using List.reverseRecOn with
  | nil => rfl
  | append_singleton p u ih =>
    have hu := hg u (by simp)
    have hn' := List.nodup_append.1 hn
    rw [poolOps_snoc, specOf_snoc]
    simp only [TOp.apply, hu.hashable, true_and]
    rw [ih hn'.1 (fun v hv => hg v (by simp [hv])), idxOf?_snoc]
    split
    · rename_i h; subst h
      have : p.idxOf? v = none := List.idxOf?_eq_none_iff.2 fun hv => hn'.2.2 _ hv _ (by simp) rfl
      simp [this]
    · rename_i h
      cases hp : p.idxOf? v with
      | some i => simp
      | none => simp [Ne.symm h]

/-- The table of literals represents a pool. -/
structure ConstsRep (f : Nat) (c : Consts) (p : List Val) : Prop where
  nodup : p.Nodup
  lit : ∀ v ∈ p, v.Literal ∧ GoodKey v
  run : Table.new.run f (poolOps p) = some c.strings
  header : c.header = p.flatMap headerEntry

theorem poolOps_ok {p : List Val} (hg : ∀ v ∈ p, GoodKey v) : ∀ op ∈ poolOps p, op.IsSet ∧ op.OK := by
  intro op hop
  simp only [poolOps, List.mem_map] at hop
  obtain ⟨⟨v, i⟩, hq, rfl⟩ := hop
  exact ⟨trivial, .inl (hg v (List.fst_mem_of_mem_zipIdx hq)), by simp, by simp⟩

theorem removesPresent_sets : ∀ (ops : List TOp) (m : Val → Option Val), (∀ op ∈ ops, op.IsSet) → removesPresent m ops
  | [], _, _ => trivial
  | .set k v :: ops, m, h => removesPresent_sets ops _ fun o ho => h o (by simp [ho])
  | .rm k :: ops, m, h => absurd (h (.rm k) (by simp)) (by simp [TOp.IsSet])

theorem ConstsRep.count {f : Nat} {c : Consts} {p : List Val} (h : ConstsRep f c p) (hl : p.length < 2 ^ 64) : c.strings.count = p.length := by
  have hok := poolOps_ok fun v hv => (h.lit v hv).2
  obtain ⟨ks, h1, h2, h3⟩ := C04_len_partial (poolOps p) (fun o ho => (hok o ho).2) (by simpa [poolOps] using hl)
    (removesPresent_sets _ _ fun o ho => (hok o ho).1) f _ h.run
  have : ks.Perm p := by
    refine (List.perm_ext_iff_of_nodup h1 h.nodup).2 fun k => ?_
    rw [h2, specOf_poolOps p h.nodup fun v hv => (h.lit v hv).2]
    simp
  have h3' : c.strings.count = ks.length := h3
  rw [h3', this.length_eq]

/-- One literal: the hash table does what the association list of `Verif.Model.Compile` does. -/
theorem ConstsRep.intern {f : Nat} (hf : 2 ^ 33 ≤ f) {c : Consts} {s : CState} (h : ConstsRep f c s.pool) (hl : s.pool.length < 2 ^ 29) {v : Val}
    (hv : v.Literal) (hg : GoodKey v) :
    ∃ c', c.intern f v = some (BitVec.ofNat 64 (s.intern v).1, c') ∧ ConstsRep f c' (s.intern v).2.pool := by
  have hok := poolOps_ok fun v hv => (h.lit v hv).2
  obtain ⟨t, ht, hs⟩ := C01_assignments_partial (poolOps s.pool) (fun o ho => (hok o ho).1) (fun o ho => (hok o ho).2)
    (by simp only [poolOps, List.length_map, List.length_zipIdx]; omega) f hf
  rw [h.run] at ht; cases ht
  have hs := hs v hg
  rw [specOf_poolOps _ h.nodup fun v hv => (h.lit v hv).2] at hs
  have hself : v.selfEqual = true := by
    cases v with
    | float b =>
      simp only [Val.selfEqual]
      rw [feq_iff]
      simp [hg.1]
    | _ => rfl
  simp only [Consts.intern, CState.intern, hself, if_true, hs]
  cases hp : s.pool.idxOf? v with
  | some i => exact ⟨c, by simp [Val.tag, Val.payload], h⟩
  | none =>
    have hnew : ∀ u ∈ s.pool ++ [v], u.Literal ∧ GoodKey u := by
      intro u hu
      simp only [List.mem_append, List.mem_singleton] at hu
      rcases hu with hu | rfl
      · exact h.lit u hu
      · exact ⟨hv, hg⟩
    have hok' := poolOps_ok (p := s.pool ++ [v]) fun v hv => (hnew v hv).2
    obtain ⟨t, ht, -⟩ := C01_assignments_partial (poolOps (s.pool ++ [v])) (fun o ho => (hok' o ho).1) (fun o ho => (hok' o ho).2)
      (by simp only [poolOps, List.length_map, List.length_zipIdx, List.length_append, List.length_singleton]; omega) f hf
    have hst := ht
    rw [poolOps_snoc, run_append, h.run] at hst
    simp only [Option.bind_some, Table.run, List.foldlM_cons, List.foldlM_nil, Option.bind_eq_bind, Table.step] at hst
    rw [← h.count (by omega)] at hst
    refine ⟨⟨t, c.header ++ headerEntry v⟩, ?_, ?_⟩
    · cases hins : c.strings.insert f v (.int (BitVec.ofNat 64 c.strings.count)) with
      | none => rw [hins] at hst; simp at hst
      | some r =>
        rw [hins] at hst
        simp at hst
        simp [Val.tag, hst, h.count (by omega)]
    · refine ⟨?_, hnew, ht, by simp [h.header]⟩
      exact List.nodup_append.2 ⟨h.nodup, by simp, by
        intro a ha b hb; simp at hb; subst hb; rintro rfl; exact (List.idxOf?_eq_none_iff.1 hp) ha⟩

theorem internAll_spec {f : Nat} (hf : 2 ^ 33 ≤ f) : ∀ (vs : List Val) {c : Consts} {s : CState}, ConstsRep f c s.pool →
    s.pool.length + vs.length ≤ 2 ^ 29 → (∀ v ∈ vs, v.Literal ∧ GoodKey v) →
    ∃ is c' p', c.internAll f vs = some (is, c') ∧ ConstsRep f c' p' ∧ s.pool <+: p' ∧ p'.length ≤ s.pool.length + vs.length ∧
      (p'.flatMap headerEntry).length ≤ (s.pool.flatMap headerEntry).length + (vs.flatMap headerEntry).length ∧
      is.length = vs.length ∧ (∀ i ∈ is, i.toNat < p'.length) ∧ is.map (fun i => p'[i.toNat]?) = vs.map some
  | [], c, s, h, hl, hv => ⟨[], c, s.pool, rfl, h, List.prefix_rfl, by simp, by simp, rfl, by simp, rfl⟩
  | v :: vs, c, s, h, hl, hv => by
    simp only [List.length_cons] at hl
    obtain ⟨c1, h1, h2⟩ := h.intern hf (by omega) (hv v (by simp)).1 (hv v (by simp)).2
    have hpl : (s.intern v).2.pool.length ≤ s.pool.length + 1 ∧ s.pool <+: (s.intern v).2.pool ∧
        (((s.intern v).2.pool).flatMap headerEntry).length ≤ (s.pool.flatMap headerEntry).length + (headerEntry v).length := by
      unfold CState.intern; split <;> simp
    obtain ⟨is, c2, p', h3, h4, h5, h5', h8, h6, h9, h7⟩ := internAll_spec hf vs (s := (s.intern v).2) h2 (by omega) (fun u hu => hv u (by simp [hu]))
    have hi := (intern_spec s v).2
    have hlt : (s.intern v).1 < (s.intern v).2.pool.length := by
      by_contra hc
      rw [List.getElem?_eq_none (by omega)] at hi; simp at hi
    have hlen := h5.length_le
    have hto : (BitVec.ofNat 64 (s.intern v).1).toNat = (s.intern v).1 := by rw [BitVec.toNat_ofNat]; omega
    refine ⟨BitVec.ofNat 64 (s.intern v).1 :: is, c2, p', by simp [Consts.internAll, h1, h3], h4, hpl.2.1.trans h5, by simp only [List.length_cons]; omega, ?_, by simp [h6], ?_, ?_⟩
    · simp only [List.flatMap_cons, List.length_append]; omega
    · intro i hi'
      rcases List.mem_cons.1 hi' with rfl | hi'
      · rw [hto]; omega
      · exact h9 i hi'
    · simp only [List.map_cons, h7, hto, List.cons.injEq, and_true]
      rw [← hi]
      exact (List.prefix_iff_getElem?.1 h5 _ hlt).trans (by simp)

/-! ## C31 -/

/-- C31, the part that holds: interning any sequence of at most 2^29 string, integer and float literals (other than NaN and -0.0)
completes, with an index for each; the virtual machine reads from the header as many constants as there are entries; the constant at the
index of a literal is that literal; and two literals have the same index iff they are the same.
Missing: NaN (always a new entry), and -0.0, where it is false (`C31_negative_zero`). -/
theorem C31_literals_partial (vs : List Val) (hv : ∀ v ∈ vs, v.Literal ∧ GoodKey v) (hl : vs.length ≤ 2 ^ 29)
    (hsize : (vs.flatMap headerEntry).length < 2 ^ 63) (f : Nat) (hf : 2 ^ 33 ≤ f) :
    ∃ is c K, Consts.new.internAll f vs = some (is, c) ∧ is.length = vs.length ∧
      (∀ rest, readConstants c.strings.count (c.header ++ rest) = some K) ∧
      (∀ (j : Nat) (i : BitVec 64) (v : Val), is[j]? = some i → vs[j]? = some v → K[i.toNat]? = some v) ∧
      (∀ (j k : Nat) (hj : j < is.length) (hk : k < is.length), is[j] = is[k] ↔ vs[j]? = vs[k]?) := by
  obtain ⟨is, c, p, h1, h2, -, h3, h4, h5, h6, h7⟩ := internAll_spec hf vs (c := Consts.new) (s := CState.initial)
    ⟨by simp [CState.initial], by simp [CState.initial], rfl, rfl⟩ (by simpa [CState.initial] using hl) hv
  simp only [CState.initial, List.length_nil, Nat.zero_add, List.flatMap_nil] at h3 h4
  have hget : ∀ (j : Nat) (i : BitVec 64) (v : Val), is[j]? = some i → vs[j]? = some v → p[i.toNat]? = some v := by
    intro j i v hi hv
    have := congrArg (fun l => l[j]?) h7
    simp only [List.getElem?_map, hi, hv, Option.map_some, Option.some.injEq] at this
    exact this
  refine ⟨is, c, p, h1, h5, ?_, hget, ?_⟩
  · intro rest
    rw [h2.count (by omega), h2.header]
    exact readConstants_pool p (fun v hv => (h2.lit v hv).1) rest (by omega)
  · intro j k hj hk
    have hj' := hget j is[j] (vs[j]'(by omega)) (by simp) (by simp)
    have hk' := hget k is[k] (vs[k]'(by omega)) (by simp) (by simp)
    rw [List.getElem?_eq_getElem (by omega), List.getElem?_eq_getElem (by omega), Option.some.injEq]
    constructor
    · intro h
      rw [h, hk'] at hj'
      exact (Option.some.inj hj').symm
    · intro h
      rw [h] at hj'
      have hlt := h6 is[j] (by simp)
      have hlt' := h6 is[k] (by simp)
      rw [List.getElem?_eq_getElem hlt] at hj'
      rw [List.getElem?_eq_getElem hlt'] at hk'
      have := (h2.nodup.getElem_inj_iff (hi := hlt) (hj := hlt')).1 (Option.some.inj (hj'.trans hk'.symm))
      exact BitVec.eq_of_toNat_eq this

/-- literals of all kinds, some twice -/
example : (∀ v ∈ [Val.int 5, .str [104, 105], .float 0x3ff0000000000000#64, .int (-1000), .int 5, .str []], v.Literal ∧ GoodKey v) ∧
    ((Consts.new.internAll 100 [Val.int 5, .str [104, 105], .float 0x3ff0000000000000#64, .int (-1000), .int 5, .str []]).map Prod.fst) =
      some [0, 1, 2, 3, 0, 4] := by
  refine ⟨?_, by decide +kernel⟩
  intro v hv
  simp only [List.mem_cons, List.not_mem_nil, or_false] at hv
  rcases hv with rfl | rfl | rfl | rfl | rfl | rfl <;> exact ⟨trivial, by trivial⟩

/-- The literals of a program whose hashes collide, then 0.0 and -0.0. -/
def zeroLits : List Val :=
  [.int 0, .int 26594, .int 31618, .int 2, .int 31614, .int 5, .float 0#64, .float 0x8000000000000000#64]

/-- C31 is false for -0.0: the table of literals compares floats with `==`, so that after six integers which collide with it the literal
-0.0 is given the index of 0.0, and 0.0 is what is loaded for it at run time. -/
theorem C31_negative_zero : ∃ c is, Consts.new.internAll 100 zeroLits = some (is, c) ∧ is[7]? = some 6 ∧
    (readConstants c.strings.count c.header).map (fun K => K[6]?) = some (some (.float 0#64)) ∧
    zeroLits[7]? = some (.float 0x8000000000000000#64) := by
  refine ⟨((Consts.new.internAll 100 zeroLits).getD ([], Consts.new)).2, ((Consts.new.internAll 100 zeroLits).getD ([], Consts.new)).1, ?_, ?_, ?_, rfl⟩ <;>
    decide +kernel

/-- In a fresh table the two zeros are kept apart: whether -0.0 survives depends on the other literals. -/
theorem C31_negative_zero_alone : ((Consts.new.internAll 100 [.float 0#64, .float 0x8000000000000000#64]).map Prod.fst) = some [0, 1] := by
  decide +kernel

end Yasl
