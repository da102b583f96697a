import Verif.Model.Collections
import Verif.Props.Set
import Verif.Props.Table
import Verif.Props.Require
import Verif.Props.IO
import Verif.Proofs.List
set_option autoImplicit false
/-!
# C102, C103: `collections`
-/
namespace Yasl

theorem setFill_run (f : Nat) : ∀ (vs : List Val) (s t : YSet), setFill f s vs = some (.ok t) → s.run f (vs.map SOp.add) = some t ∧ ∀ v ∈ vs, v.hashable = true
  | [], s, t, h => by simp only [setFill, Option.some.injEq, Out.ok.injEq] at h; subst h; exact ⟨rfl, by simp⟩
  | v :: vs, s, t, h => by
    simp only [setFill] at h
    split at h
    · rename_i hv
      cases hi : s.insert f v with
      | none => simp [hi] at h
      | some s1 =>
        simp only [hi, Option.bind_some] at h
        obtain ⟨h1, h2⟩ := setFill_run f vs s1 t h
        refine ⟨?_, by simp only [List.mem_cons]; rintro u (rfl | hu); exact hv; exact h2 u hu⟩
        simp only [List.map_cons, YSet.run, List.foldlM_cons, YSet.step, hi]
        exact h1
    · simp at h

theorem setFill_unhashable (f : Nat) : ∀ (vs : List Val) (s : YSet) (r : Out YSet), setFill f s vs = some r → (r = .typeError ↔ ∃ v ∈ vs, v.hashable = false) ∧ r ≠ .ub ∧ r ≠ .valueError
  | [], s, r, h => by simp only [setFill, Option.some.injEq] at h; subst h; simp
  | v :: vs, s, r, h => by
    simp only [setFill] at h
    split at h
    · rename_i hv
      cases hi : s.insert f v with
      | none => simp [hi] at h
      | some s1 =>
        simp only [hi, Option.bind_some] at h
        obtain ⟨h1, h2⟩ := setFill_unhashable f vs s1 r h
        exact ⟨by rw [h1]; simp [hv], h2⟩
    · rename_i hv
      simp only [Option.some.injEq] at h
      subst h
      simp [hv]

theorem added_iff (vs : List Val) (x : Val) : (∃ pre post, vs.map SOp.add = pre ++ SOp.add x :: post ∧ SOp.rm x ∉ post) ↔ x ∈ vs := by
  constructor
  · rintro ⟨pre, post, h, -⟩
    have : SOp.add x ∈ vs.map SOp.add := by rw [h]; simp
    simpa using this
  · intro h
    obtain ⟨a, b, rfl⟩ := List.append_of_mem h
    exact ⟨a.map SOp.add, b.map SOp.add, by simp, by simp⟩

/-- The values a set constructor takes: the elements of the list, if it is called with one list, else the arguments. -/
def setContents (items : Nat → List Val) : List Val → List Val
  | [.ref .list a] => items a
  | args => args

theorem collSet_eq (f : Nat) (items : Nat → List Val) (args : List Val) : collSet f items args = setFill f YSet.new (setContents items args) := by
  match args with
  | [] => rfl
  | [v] => cases v with
    | ref k a => cases k <;> rfl
    | _ => rfl
  | v :: w :: rest => cases v with
    | ref k a => cases k <;> rfl
    | _ => rfl

/-- **C102** `collections.set(...)`: when it completes, it is a type error exactly if one of the values cannot be an element; else the set contains the values given,
each once, and nothing else.  `U`: values that are equal only if they are the same (no NaN, -0.0, undef; not 1 and 1.0 together, see C16). -/
theorem C102_set_partial (U : Val → Prop) (hU : EqIdent U) (f : Nat) (items : Nat → List Val) (args : List Val) (hv : ∀ v ∈ setContents items args, U v ∨ v.hashable = false)
    (r : Out YSet) (h : collSet f items args = some r) :
    (r = .typeError ↔ ∃ v ∈ setContents items args, v.hashable = false) ∧
    ∀ s, r = .ok s → s.elems.Nodup ∧ (∀ x, x ∈ s.elems ↔ x ∈ setContents items args) ∧
      ∀ f' x b, U x → s.search f' x = some b → (b = true ↔ x ∈ setContents items args) := by
  rw [collSet_eq] at h
  refine ⟨(setFill_unhashable f _ _ _ h).1, ?_⟩
  rintro s rfl
  obtain ⟨h1, h2⟩ := setFill_run f _ _ _ h
  have hops : ∀ op ∈ (setContents items args).map SOp.add, U op.elem := by
    intro op hop
    obtain ⟨v, hv', rfl⟩ := List.mem_map.1 hop
    rcases hv v hv' with hu | hu
    · exact hu
    · rw [h2 v hv'] at hu; cases hu
  obtain ⟨g1, g2, g3⟩ := C13_membership U hU _ hops f s h1
  refine ⟨g2, fun x => by rw [g3, added_iff], fun f' x b hx hs => ?_⟩
  rw [g1 f' x b hx hs, added_iff]

theorem foldl_append (vs : List Val) : ∀ (l : YList) (xs : List Val), l.Holds xs →
    ∃ l', vs.foldl (fun (l : Out YList) v => l.bind fun l => l.append v) (.ok l) = .ok l' ∧ l'.Holds (xs ++ vs) := by
  induction vs with
  | nil => intro l xs h; exact ⟨l, rfl, by simpa using h⟩
  | cons v vs ih =>
    intro l xs h
    obtain ⟨l1, e1, h1⟩ := Holds.append h v
    obtain ⟨l2, e2, h2⟩ := ih l1 _ h1
    exact ⟨l2, by simpa [e1] using e2, by simpa using h2⟩

/-- **C102** `collections.list(...)`: a list of the arguments, in the order written (`args` is from the top of the stack). -/
theorem C102_list (args : List Val) : ∃ l, collList args = .ok l ∧ l.Holds args.reverse := by
  obtain ⟨l1, e1, h1⟩ := foldl_append args YList.new [] (Holds.newSized _)
  obtain ⟨l2, e2, h2⟩ := Holds.reverse h1
  exact ⟨l2, by simp only [collList, e1, Out.bind_ok, e2], by simpa using h2⟩

/-- **C102** `s.tolist()`: a list of the elements, each once. -/
theorem C102_tolist (U : Val → Prop) (hU : EqIdent U) (ops : List SOp) (hops : ∀ op ∈ ops, U op.elem) (f : Nat) (s : YSet) (hr : YSet.new.run f ops = some s) :
    ∃ l xs, setTolist s = .ok l ∧ l.Holds xs ∧ xs.Nodup ∧ ∀ x, x ∈ xs ↔ ∃ pre post, ops = pre ++ SOp.add x :: post ∧ SOp.rm x ∉ post := by
  obtain ⟨l, e, h⟩ := foldl_append s.elems YList.new [] (Holds.newSized _)
  obtain ⟨-, g2, g3⟩ := C13_membership U hU ops hops f s hr
  exact ⟨l, s.elems, e, by simpa using h, g2, g3⟩

/-- The pairs given to `collections.table`, in the order written, from the values from the top of the stack. -/
def pairsOf : List Val → List (Val × Val)
  | v :: k :: rest => pairsOf rest ++ [(k, v)]
  | _ => []

theorem tableFill_run (f : Nat) : ∀ (n : Nat) (vs : List Val) (t : Table), vs.length = 2 * n → (∀ p ∈ pairsOf vs, GoodKey p.1) →
    tableFill f t vs = (t.run f ((pairsOf vs).reverse.map fun p => TOp.set p.1 p.2)).map .ok
  | 0, vs, t, h, _ => by
    have : vs = [] := List.length_eq_zero_iff.1 (by omega)
    subst this; rfl
  | n + 1, [], t, h, _ => by simp at h
  | n + 1, [v], t, h, _ => by simp at h; omega
  | n + 1, v :: k :: rest, t, h, hk => by
    simp only [pairsOf, List.mem_append, List.mem_singleton] at hk
    have hgk : GoodKey k := hk (k, v) (.inr rfl)
    simp only [tableFill, pairsOf, List.reverse_append, List.reverse_cons, List.reverse_nil, List.nil_append, List.singleton_append, List.map_cons]
    rw [Table.run, List.foldlM_cons]
    simp only [Table.step]
    cases hi : t.insert f k v with
    | none => rfl
    | some r =>
      have hr2 : r.2 = true := by
        simp only [Table.insert, hgk.hashable, if_true] at hi
        cases hj : t.insertFast f k v with
        | none => simp [hj] at hi
        | some t' => simp [hj] at hi; rw [← hi]
      simp only [Option.bind_some, hr2, if_true, Option.map_some, Option.bind_eq_bind]
      exact tableFill_run f n rest r.1 (by simp at h; omega) fun p hp => hk p (.inl hp)


/-- What a list of pairs says about a key: the first pair with it. -/
def firstPair (k : Val) : List (Val × Val) → Option Val
  | [] => none
  | p :: ps => if p.1 = k then some p.2 else firstPair k ps

theorem specOf_pairs (k : Val) : ∀ (ps : List (Val × Val)), (∀ p ∈ ps, GoodKey p.1) →
    specOf (ps.reverse.map fun p => TOp.set p.1 p.2) k = firstPair k ps
  | [], _ => rfl
  | p :: ps, h => by
    have ih := specOf_pairs k ps fun q hq => h q (by simp [hq])
    simp only [List.reverse_cons, List.map_append, List.map_cons, List.map_nil, firstPair]
    have hap : specOf (ps.reverse.map (fun p => TOp.set p.1 p.2) ++ [TOp.set p.1 p.2]) =
        TOp.apply (specOf (ps.reverse.map fun p => TOp.set p.1 p.2)) (TOp.set p.1 p.2) := by
      simp [specOf, specFrom]
    rw [hap]
    simp only [TOp.apply, (h p (by simp)).hashable, if_true]
    by_cases hk : p.1 = k
    · simp [hk]
    · simp only [Ne.symm hk, hk, if_false]; exact ih

theorem pairsOf_length : ∀ (n : Nat) (vs : List Val), vs.length = 2 * n → (pairsOf vs).length = n
  | 0, vs, h => by
    have : vs = [] := List.length_eq_zero_iff.1 (by omega)
    subst this; rfl
  | n + 1, [], h => by simp at h
  | n + 1, [v], h => by simp at h; omega
  | n + 1, v :: k :: rest, h => by simp [pairsOf, pairsOf_length n rest (by simp at h; omega)]

/-- **C102** `collections.table(k1, v1, k2, v2, …)`: it completes, and a key has the value of the first pair with it (not of the last, as in a sequence of assignments).
For an even number of arguments, keys other than undef, NaN, -0.0 and values other than undef. -/
theorem C102_table_partial (args : List Val) (n : Nat) (hn : args.length = 2 * n) (hl : n ≤ 2 ^ 29) (hk : ∀ p ∈ pairsOf args, GoodKey p.1 ∧ LiveVal p.2) (f : Nat) (hf : 2 ^ 33 ≤ f) :
    ∃ t, collTable f args = some (.ok t) ∧ ∀ k, GoodKey k → t.search f k = some ((firstPair k (pairsOf args)).getD .end_) := by
  obtain ⟨t, h1, h2⟩ := C01_assignments_partial ((pairsOf args).reverse.map fun p => TOp.set p.1 p.2)
    (by intro op hop; obtain ⟨p, -, rfl⟩ := List.mem_map.1 hop; trivial)
    (by intro op hop; obtain ⟨p, hp, rfl⟩ := List.mem_map.1 hop; have := hk p (by simpa using hp); exact ⟨.inl this.1, this.2⟩)
    (by simp [pairsOf_length n args hn]; omega) f hf
  refine ⟨t, ?_, fun k hgk => ?_⟩
  · unfold collTable
    rw [if_neg (by omega), tableFill_run f n args Table.new hn fun p hp => (hk p hp).1, h1]
    rfl
  · rw [h2 k hgk, specOf_pairs k _ fun p hp => (hk p hp).1]

/-- With an odd number of arguments the last key is stored with `undef`: it is counted, and not there. -/
theorem C102_odd_counterexample : ∃ t, collTable 100 [.str [97]] = some (.ok t) ∧ t.count = 1 ∧ t.entries = [] := by
  refine ⟨_, rfl, ?_, ?_⟩ <;> decide +kernel

/-- The first of two pairs with the same key wins. -/
theorem C102_duplicate_key : ∃ t, collTable 100 [.int 2, .str [97], .int 1, .str [97]] = some (.ok t) ∧ t.search 100 (.str [97]) = some (.int 1) := by
  refine ⟨_, rfl, ?_⟩; decide +kernel

/-! ## C103: the text of a set -/

theorem blockText_spec {m : Block Byte} {l : List Byte} (h : m.Starts l) : ∀ (k i : Nat), i + k = l.length → blockText m k i = .ok (l.drop i)
  | 0, i, hi => by rw [List.drop_eq_nil_of_le (by omega)]; rfl
  | k + 1, i, hi => by
    rw [blockText, h.ld (by omega), Out.bind_ok, blockText_spec h k (i + 1) (by omega), Out.bind_ok, List.drop_eq_getElem_cons (i := i) (by omega)]

theorem Block.Starts.enlarge {m : Block Byte} {l : List Byte} (h : m.Starts l) {n : Nat} (hn : m.length ≤ n) :
    (Block.realloc m n).Starts l ∧ (Block.realloc m n).length = n := by
  obtain ⟨r, rfl⟩ := h
  refine ⟨⟨r ++ List.replicate (n - (l.map some ++ r : Block Byte).length) none, ?_⟩, ?_⟩
  · unfold Block.realloc
    rw [List.take_of_length_le hn, List.append_assoc]
  · unfold Block.realloc; simp at hn ⊢; omega

theorem Block.Starts.copyIn {m : Block Byte} {l : List Byte} (h : m.Starts l) (src : List Byte) (hn : l.length + src.length ≤ m.length) :
    ∃ m', m.memcpy l.length src = .ok m' ∧ m'.Starts (l ++ src) ∧ m'.length = m.length := by
  obtain ⟨r, rfl⟩ := h
  simp only [List.length_append, List.length_map] at hn
  refine ⟨l.map some ++ src.map some ++ r.drop src.length, ?_, ⟨r.drop src.length, by simp⟩, by simp; omega⟩
  refine memcpy_exact (a := l.map some) (b := r.take src.length) (r := r.drop src.length) (by simp) (by simp) (by simp; omega)

theorem Block.Starts.put {m : Block Byte} {l : List Byte} (h : m.Starts l) (hn : l.length < m.length) (c : Byte) :
    ∃ m', m.st l.length c = .ok m' ∧ m'.Starts (l ++ [c]) ∧ m'.length = m.length := by
  obtain ⟨r, rfl⟩ := h
  cases r with
  | nil => simp at hn
  | cons x r =>
    refine ⟨l.map some ++ some c :: r, ?_, ⟨r, by simp⟩, by simp⟩
    unfold Block.st
    rw [if_pos hn, List.set_append_right _ _ (by simp)]
    simp

theorem growWhile_spec {l : List Byte} (len : Nat) : ∀ (k : Nat) (m : Block Byte), m.Starts l → 0 < m.length → l.length + len < m.length * 2 ^ (k - 1) → 0 < k →
    ∃ m', growWhile l.length len k m m.length = some (m', m'.length) ∧ m'.Starts l ∧ m.length ≤ m'.length ∧ l.length + len < m'.length
  | 0, m, _, _, _, h => by omega
  | k + 1, m, h, hp, hk, _ => by
    unfold growWhile
    by_cases hc : l.length + len ≥ m.length
    · rw [if_pos hc]
      obtain ⟨h1, h2⟩ := h.enlarge (n := m.length * 2) (by omega)
      have hk0 : 0 < k := by
        rcases Nat.eq_zero_or_pos k with rfl | h
        · simp at hk; omega
        · exact h
      have := growWhile_spec (l := l) len k (Block.realloc m (m.length * 2)) h1 (by omega)
        (by rw [h2, Nat.mul_assoc, ← Nat.pow_succ', show (k - 1).succ = k + 1 - 1 by omega]; exact hk) hk0
      rw [h2] at this
      obtain ⟨m', g1, g2, g3, g4⟩ := this
      exact ⟨m', g1, g2, by omega, g4⟩
    · rw [if_neg hc]
      exact ⟨m, rfl, h, Nat.le_refl _, by omega⟩

/-- The text of the elements, each followed by a comma and a space. -/
def elemsText (text : Val → List Byte) (vs : List Val) : List Byte := vs.flatMap fun v => text v ++ [44#8, 32#8]

theorem setTextLoop_spec (g : Nat) (text : Val → List Byte) : ∀ (vs : List Val) (m : Block Byte) (l : List Byte), m.Starts l → 8 ≤ m.length → l.length ≤ m.length →
    l.length + (elemsText text vs).length < 2 ^ g →
    ∃ m', setTextLoop g text vs m l.length m.length = some (.ok (m', l.length + (elemsText text vs).length)) ∧ m'.Starts (l ++ elemsText text vs) ∧
      (vs ≠ [] → l.length + (elemsText text vs).length ≤ m'.length)
  | [], m, l, h, h8, hl, hg => ⟨m, by simp [setTextLoop, elemsText], by simpa [elemsText] using h, by simp⟩
  | v :: vs, m, l, h, h8, hl, hg => by
    have hcons : elemsText text (v :: vs) = text v ++ [44#8, 32#8] ++ elemsText text vs := by simp [elemsText]
    rw [hcons] at hg ⊢
    simp only [List.length_append, List.length_cons, List.length_nil, Nat.zero_add] at hg ⊢
    have hgp : 0 < g := by
      rcases Nat.eq_zero_or_pos g with rfl | h
      · simp at hg
      · exact h
    obtain ⟨m1, e1, s1, l1, b1⟩ := growWhile_spec (text v).length g m h (by omega)
      (by
        have h2 : 2 ^ g = 2 * 2 ^ (g - 1) := by rw [← Nat.pow_succ', show (g - 1).succ = g by omega]
        have h3 : 2 * 2 ^ (g - 1) ≤ m.length * 2 ^ (g - 1) := Nat.mul_le_mul_right _ (by omega)
        omega) hgp
    obtain ⟨m2, e2, s2, l2⟩ := s1.copyIn (text v) (by omega)
    have hlen : (l ++ text v).length = l.length + (text v).length := by simp
    obtain ⟨m3, hm3, s3, l3, b3⟩ : ∃ m3, (if l.length + (text v).length + 2 ≥ m1.length then Block.realloc m2 (if l.length + (text v).length + 2 ≥ m1.length then m1.length * 2 else m1.length) else m2) = m3 ∧
        m3.Starts (l ++ text v) ∧ m3.length = (if l.length + (text v).length + 2 ≥ m1.length then m1.length * 2 else m1.length) ∧ l.length + (text v).length + 2 ≤ m3.length := by
      by_cases hc : l.length + (text v).length + 2 ≥ m1.length
      · rw [if_pos hc, if_pos hc]
        obtain ⟨x1, x2⟩ := s2.enlarge (n := m1.length * 2) (by omega)
        exact ⟨_, rfl, x1, x2, by omega⟩
      · rw [if_neg hc, if_neg hc]
        exact ⟨_, rfl, s2, l2, by omega⟩
    obtain ⟨m4, e4, s4, l4⟩ := s3.put (by omega) 44#8
    obtain ⟨m5, e5, s5, l5⟩ := s4.put (by simp; omega) 32#8
    simp only [List.length_append, List.length_singleton] at e4 e5
    obtain ⟨m', g1, g2, g3⟩ := setTextLoop_spec g text vs m5 (l ++ text v ++ [44#8] ++ [32#8]) s5 (by split at l3 <;> omega) (by simp; omega)
      (by simp only [List.length_append, List.length_cons, List.length_nil]; omega)
    refine ⟨m', ?_, ?_, ?_⟩
    · rw [setTextLoop, e1]
      dsimp only
      rw [e2]
      simp only [Run.bind_ok]
      rw [hm3, e4]
      simp only [Run.bind_ok]
      rw [e5]
      simp only [Run.bind_ok]
      rw [l5, l4, l3] at g1
      simp only [List.length_append, List.length_singleton] at g1
      rw [show l.length + (text v).length + 2 = l.length + (text v).length + 1 + 1 by omega, g1]
      congr 3; omega
    · simpa using g2
    · intro _
      cases vs with
      | nil =>
        have hm' : m' = m5 := by simp [setTextLoop] at g1; exact g1.1.symm
        rw [hm']
        simp [elemsText]; omega
      | cons w ws =>
        have := g3 (by simp)
        simp only [List.length_append, List.length_cons, List.length_nil] at this
        omega

theorem elemsText_comma (text : Val → List Byte) : ∀ (vs : List Val), vs ≠ [] → elemsText text vs = commaSep (vs.map text) ++ [44#8, 32#8]
  | [], h => absurd rfl h
  | [v], _ => by simp [elemsText, commaSep]
  | v :: w :: vs, _ => by
    have ih := elemsText_comma text (w :: vs) (by simp)
    have : elemsText text (v :: w :: vs) = text v ++ [44#8, 32#8] ++ elemsText text (w :: vs) := by simp [elemsText]
    rw [this, ih]
    simp [commaSep, printBytes]

/-- **C103** the text of a set whose length is the number of its elements (all sets except after `remove` of an absent value, C13): `set(`, the texts of the elements with
`, ` between, `)`.  However long the texts are, no byte is written outside of the buffer. -/
theorem C103_set_text (text : Val → List Byte) (s : YSet) (hc : s.length = s.elems.length) (g : Nat) (hg : 4 + (elemsText text s.elems).length < 2 ^ g) :
    setTostr g text s = some (.ok (printBytes "set(" ++ commaSep (s.elems.map text) ++ printBytes ")")) := by
  obtain ⟨m0, e0, s0, l0⟩ := Block.Starts.copyIn (m := (Block.malloc 8 : Block Byte)) (l := []) ⟨Block.malloc 8, by simp⟩ (printBytes "set(") (by decide)
  simp only [List.length_nil, List.nil_append] at e0 s0
  have hl0 : m0.length = 8 := by rw [l0]; simp [Block.malloc]
  have h4 : (printBytes "set(").length = 4 := by decide
  unfold setTostr
  rw [e0]
  simp only [Run.bind_ok]
  by_cases h0 : s.length = 0
  · rw [if_pos h0]
    have he : s.elems = [] := List.length_eq_zero_iff.1 (by omega)
    obtain ⟨m1, e1, s1, -⟩ := s0.put (by omega) 41#8
    rw [h4] at e1
    rw [e1, he]
    simp only [Run.bind_ok]
    rw [blockText_spec s1 5 0 (by decide)]
    simp [commaSep, printBytes]
  · rw [if_neg h0]
    have hne : s.elems ≠ [] := fun he => h0 (by rw [hc, he]; rfl)
    obtain ⟨m1, e1, s1, b1⟩ := setTextLoop_spec g text s.elems m0 (printBytes "set(") s0 (by omega) (by omega) (by rw [h4]; exact hg)
    rw [h4, hl0] at e1
    rw [e1]
    simp only [Run.bind_ok]
    have hcomma := elemsText_comma text s.elems hne
    have b1 := b1 hne
    obtain ⟨r, hr⟩ := s1
    have hst : ∃ m2, m1.st (4 + (elemsText text s.elems).length - 2) 41#8 = .ok m2 ∧ m2.Starts (printBytes "set(" ++ commaSep (s.elems.map text) ++ [41#8]) := by
      have hS : m1.Starts (printBytes "set(" ++ commaSep (s.elems.map text)) := by
        refine ⟨[44#8, 32#8].map some ++ r, ?_⟩
        rw [hr, hcomma]
        simp
      obtain ⟨m2, e2, s2, -⟩ := hS.put (by rw [h4] at b1; rw [hcomma] at b1; simp only [List.length_append, h4, List.length_cons, List.length_nil] at b1 ⊢; omega) 41#8
      refine ⟨m2, ?_, s2⟩
      rw [← e2]
      congr 1
      rw [hcomma]
      simp only [List.length_append, h4, List.length_cons, List.length_nil]
      omega
    obtain ⟨m2, e2, s2⟩ := hst
    rw [e2]
    simp only [Run.bind_ok]
    rw [blockText_spec s2 _ 0 (by rw [hcomma]; simp only [List.length_append, h4, List.length_cons, List.length_nil]; omega)]
    rfl

/-- **C103** in terms of what the program did: a set made with `add` and with `remove` of members. -/
theorem C103_history (U : Val → Prop) (hU : EqIdent U) (ops : List SOp) (hops : ∀ op ∈ ops, U op.elem) (hrm : removesMember (fun _ => False) ops) (hlen : ops.length < 2 ^ 64)
    (f : Nat) (s : YSet) (hr : YSet.new.run f ops = some s) (text : Val → List Byte) (g : Nat) (hg : 4 + (elemsText text s.elems).length < 2 ^ g) :
    ∃ xs : List Val, xs.Nodup ∧ (∀ x, x ∈ xs ↔ ∃ pre post, ops = pre ++ SOp.add x :: post ∧ SOp.rm x ∉ post) ∧
      setTostr g text s = some (.ok (printBytes "set(" ++ commaSep (xs.map text) ++ printBytes ")")) := by
  obtain ⟨l, h1, h2, h3⟩ := C13_length_partial U hU ops hops hrm hlen f s hr
  obtain ⟨-, g2, g3⟩ := C13_membership U hU ops hops f s hr
  have hperm : l.Perm s.elems := (List.perm_ext_iff_of_nodup h1 g2).2 fun x => by rw [h2, g3]
  exact ⟨s.elems, g2, g3, C103_set_text text s (by rw [h3, hperm.length_eq]) g hg⟩

/-- After the removal of an absent value the text is wrong: an empty set whose length wrapped around is printed as `se)`. -/
theorem C103_wrong_length (text : Val → List Byte) : ∃ s, YSet.new.run 100 [.rm (.int 7)] = some s ∧ setTostr 10 text s = some (.ok (printBytes "se)")) := by
  have h : (YSet.new.run 100 [.rm (.int 7)]).map (fun s => (decide (s.length = 0), s.elems)) = some (false, []) := by decide +kernel
  obtain ⟨s, hs, he⟩ := Option.map_eq_some_iff.1 h
  simp only [Prod.mk.injEq, decide_eq_false_iff_not] at he
  refine ⟨s, hs, ?_⟩
  unfold setTostr
  simp only [if_neg he.1, he.2, setTextLoop]
  decide +kernel

example : (match collSet 100 (fun _ => []) [.int 3, .str [97], .int 3] with
    | some (.ok s) => setTostr 10 (fun v => match v with | .int i => [BitVec.setWidth 8 i + 48#8] | .str b => b | _ => []) s
    | _ => none) = some (.ok (printBytes "set(a, 3)")) := by decide +kernel

/-- `collections.set(3, 'a', 3)`, `collections.set([])` and `collections.table('a', 1, 2, 3, 'a', 4)` -/
example : ∃ r, collSet 100 (fun _ => []) [.int 3, .str [97], .int 3] = some r ∧ r ≠ .typeError := by
  obtain ⟨r, hr⟩ := Option.isSome_iff_exists.1 (show (collSet 100 (fun _ => []) [.int 3, .str [97], .int 3]).isSome = true by decide +kernel)
  have h := C102_set_partial _ eqIdent_noFloat 100 (fun _ => []) [.int 3, .str [97], .int 3] (by simp [setContents, GoodKey, Val.tag]) r hr
  exact ⟨r, hr, fun e => by obtain ⟨v, hv, hh⟩ := h.1.1 e; simp [setContents] at hv; rcases hv with rfl | rfl | rfl <;> simp [Val.hashable] at hh⟩
example : collSet 100 (fun _ => []) [.int 3, .ref .list 1] = some .typeError := by
  obtain ⟨r, hr⟩ := Option.isSome_iff_exists.1 (show (collSet 100 (fun _ => []) [.int 3, .ref .list 1]).isSome = true by decide +kernel)
  rw [hr, (C102_set_partial _ eqIdent_noFloat 100 (fun _ => []) [.int 3, .ref .list 1] (by simp [setContents, GoodKey, Val.tag, Val.hashable]) r hr).1.2
    ⟨.ref .list 1, by simp [setContents], rfl⟩]
example : ∃ t, collTable (2 ^ 33) [.int 4, .str [97], .int 3, .int 2, .int 1, .str [97]] = some (.ok t) ∧ t.search (2 ^ 33) (.str [97]) = some (.int 1) := by
  obtain ⟨t, h1, h2⟩ := C102_table_partial [.int 4, .str [97], .int 3, .int 2, .int 1, .str [97]] 3 rfl (by decide) (by simp [pairsOf, GoodKey, LiveVal]) (2 ^ 33) (Nat.le_refl _)
  refine ⟨t, h1, (h2 (.str [97]) trivial).trans ?_⟩
  decide +kernel

end Yasl
