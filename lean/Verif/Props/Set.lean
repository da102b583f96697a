import Verif.Proofs.Set
/-!
# C13–C16, C69 — `collections.set`

`memOf ops` (in `Verif.Spec.Set`) is the set denoted by a history; `U` is any class of values on which `==` is identity,
e.g. all ints, strings and bools.
-/
namespace Yasl

/-- classes of values with `EqIdent`: everything but floats, and everything but ints -/
theorem eqIdent_noFloat : EqIdent (fun x => GoodKey x ∧ x.tag ≠ .float) := by
  intro x hx
  refine ⟨hx.1, fun y hy h => ?_⟩
  refine (isEqualTyped_good hy.1 (.inr (.inr hx.1))).1 ?_
  simp only [isEqualTyped, Bool.and_eq_true, beq_iff_eq]
  refine ⟨?_, h⟩
  obtain ⟨hx1, hx2⟩ := hx; obtain ⟨hy1, hy2⟩ := hy
  cases x <;> cases y <;> simp_all [isEqual, Val.isNum, Val.tag]

theorem eqIdent_noInt : EqIdent (fun x => GoodKey x ∧ x.tag ≠ .int) := by
  intro x hx
  refine ⟨hx.1, fun y hy h => ?_⟩
  refine (isEqualTyped_good hy.1 (.inr (.inr hx.1))).1 ?_
  simp only [isEqualTyped, Bool.and_eq_true, beq_iff_eq]
  refine ⟨?_, h⟩
  obtain ⟨hx1, hx2⟩ := hx; obtain ⟨hy1, hy2⟩ := hy
  cases x <;> cases y <;> simp_all [isEqual, Val.isNum, Val.tag]

section
variable (U : Val → Prop) (hU : EqIdent U)

/-- C13: after any completed history of additions and removals, membership of `x` is true iff the last operation on `x` was
an addition, and iterating lists each member once. -/
theorem C13_membership (hU : EqIdent U) (ops : List SOp) (hops : ∀ op ∈ ops, U op.elem) (f : Nat) (s : YSet)
    (hr : YSet.new.run f ops = some s) :
    (∀ f' x b, U x → s.search f' x = some b →
      (b = true ↔ ∃ pre post, ops = pre ++ SOp.add x :: post ∧ SOp.rm x ∉ post)) ∧
    s.elems.Nodup ∧ ∀ x, x ∈ s.elems ↔ ∃ pre post, ops = pre ++ SOp.add x :: post ∧ SOp.rm x ∉ post := by
  obtain ⟨h1, h2, h3, h4⟩ := setNew_spec hU
  obtain ⟨i, a, -⟩ := setRun_spec hU ops h1 hops hr
  have ha : SAbs U s (memOf ops) := a _ h2
  refine ⟨fun f' x b hx hs => ?_, elems_nodup hU i, fun x => ?_⟩
  · rw [setSearch_spec hU i ha hx hs, memOf_iff]
  · rw [elems_mem hU i, ha x, memOf_iff]

/-- C13, the part about `len` that holds: if no absent element is removed, `len` is the number of members.
Missing: removal of an absent element, where it is false (`C13_remove_absent_wraps`), and `undef` (`C13_undef_lost`). -/
theorem C13_length_partial (hU : EqIdent U) (ops : List SOp) (hops : ∀ op ∈ ops, U op.elem) (hrm : removesMember (fun _ => False) ops)
    (hlen : ops.length < 2 ^ 64) (f : Nat) (s : YSet) (hr : YSet.new.run f ops = some s) :
    ∃ l : List Val, l.Nodup ∧ (∀ x, x ∈ l ↔ ∃ pre post, ops = pre ++ SOp.add x :: post ∧ SOp.rm x ∉ post) ∧
      s.length = l.length := by
  obtain ⟨h1, h2, h3, h4⟩ := setNew_spec hU
  obtain ⟨i, a, c⟩ := setRun_spec hU ops h1 hops hr
  obtain ⟨-, hn, hm⟩ := C13_membership U hU ops hops f s hr
  exact ⟨s.elems, hn, hm, c _ h2 (by rw [h3, h4]; rfl) (by rw [h4]; simpa using hlen) hrm⟩

example : (YSet.new.run 100 [.add (.int 1), .add (.str [97]), .add (.int 1), .rm (.str [97])]).map
    (fun s => (s.length, s.elems)) = some (1, [.int 1]) := by decide +kernel
example : removesMember (fun _ => False) [.add (.int 1), .add (.str [97]), .rm (.str [97])] := by
  simp [removesMember, SOp.apply]
example : ∀ op ∈ [SOp.add (.int 1), .add (.str [97]), .rm (.str [97])], GoodKey op.elem ∧ op.elem.tag ≠ .float := by
  simp [SOp.elem, GoodKey, Val.tag]

/-- C13 is false when an absent element is removed: the length wraps around to 2^64 − 1. -/
theorem C13_remove_absent_wraps : (YSet.new.run 100 [.rm (.int 7)]).map YSet.length = some (2 ^ 64 - 1) := by decide +kernel

/-- C13 is false for `undef`: it is accepted and counted but never a member. -/
theorem C13_undef_lost : ∃ s, YSet.new.run 100 [.add .undef] = some s ∧ s.length = 1 ∧ s.search 100 .undef = some false ∧
    s.elems = [] := by
  refine ⟨_, rfl, ?_, ?_, ?_⟩ <;> decide +kernel

/-! ## C14 -/

theorem filterInto_spec (hU : EqIdent U) {f : Nat} {keep : Bool} {r : YSet} {mr : Val → Prop} (hr : SInv U r) (ar : SAbs U r mr) :
    ∀ (l : List Val) (t t' : YSet), SInv U t → (∀ x ∈ l, U x) → filterInto f keep r t l = some t' →
      SInv U t' ∧ ∀ m, SAbs U t m → SAbs U t' (fun y => (y ∈ l ∧ (mr y ↔ keep = true)) ∨ m y) := by
  intro l
  induction l with
  | nil =>
    intro t t' h _ he
    simp only [filterInto, Option.some.injEq] at he
    subst he; exact ⟨h, fun m hm => by simpa using hm⟩
  | cons x l ih =>
    intro t t' h hl he
    simp only [filterInto, Option.bind_eq_some_iff] at he
    obtain ⟨c, hc, t1, h1, h2⟩ := he
    have hx := hl x (by simp)
    have hcm := setSearch_spec hU hr ar hx hc
    have hrest : ∀ y ∈ l, U y := fun y hy => hl y (by simp [hy])
    split at h1
    · rename_i hck
      obtain ⟨i1, a1, -⟩ := setInsert_sIns hU f t t1 x h hx h1
      obtain ⟨i2, a2⟩ := ih t1 t' i1 hrest h2
      refine ⟨i2, fun m hm y => ?_⟩
      rw [a2 _ (a1 m hm) y]
      dsimp only
      rw [List.mem_cons]
      subst hck
      constructor
      · rintro (⟨a, b⟩ | rfl | d)
        · exact .inl ⟨.inr a, b⟩
        · exact .inl ⟨.inl rfl, hcm.symm⟩
        · exact .inr d
      · rintro (⟨rfl | a, b⟩ | d)
        · exact .inr (.inl rfl)
        · exact .inl ⟨a, b⟩
        · exact .inr (.inr d)
    · rename_i hck
      injection h1 with h1; subst h1
      obtain ⟨i2, a2⟩ := ih t t' h hrest h2
      refine ⟨i2, fun m hm y => ?_⟩
      rw [a2 _ hm y]
      dsimp only
      rw [List.mem_cons]
      constructor
      · rintro (⟨a, b⟩ | d)
        · exact .inl ⟨.inr a, b⟩
        · exact .inr d
      · rintro (⟨rfl | a, b⟩ | d)
        · exfalso
          apply hck
          rw [← hcm] at b
          cases c <;> cases keep <;> simp_all
        · exact .inl ⟨a, b⟩
        · exact .inr d

/-- C14: the members of `a | b`, `a & b`, `a ^ b`, `a &^ b` and `a.copy()`, for sets produced by any completed histories.
(The operands are only read.) -/
theorem C14_algebra (hU : EqIdent U) (opsA opsB : List SOp) (hA : ∀ op ∈ opsA, U op.elem) (hB : ∀ op ∈ opsB, U op.elem)
    (f : Nat) (a b : YSet) (ra : YSet.new.run f opsA = some a) (rb : YSet.new.run f opsB = some b) (f' : Nat) (c : YSet) :
    (a.union f' b = some c → ∀ g x r, U x → c.search g x = some r → (r = true ↔ memOf opsA x ∨ memOf opsB x)) ∧
    (a.inter f' b = some c → ∀ g x r, U x → c.search g x = some r → (r = true ↔ memOf opsA x ∧ memOf opsB x)) ∧
    (a.symDiff f' b = some c → ∀ g x r, U x → c.search g x = some r →
      (r = true ↔ (memOf opsA x ∧ ¬ memOf opsB x) ∨ (¬ memOf opsA x ∧ memOf opsB x))) ∧
    (a.diff f' b = some c → ∀ g x r, U x → c.search g x = some r → (r = true ↔ memOf opsA x ∧ ¬ memOf opsB x)) ∧
    (a.copy f' = some c → ∀ g x r, U x → c.search g x = some r → (r = true ↔ memOf opsA x)) := by
  obtain ⟨n1, n2, n3, n4⟩ := setNew_spec hU
  obtain ⟨ia, aa, -⟩ := setRun_spec hU opsA n1 hA ra
  obtain ⟨ib, ab, -⟩ := setRun_spec hU opsB n1 hB rb
  have ha : SAbs U a (memOf opsA) := aa _ n2
  have hb : SAbs U b (memOf opsB) := ab _ n2
  have ea : ∀ x ∈ a.elems, U x := fun x hx => ((elems_mem hU ia x).1 hx).1
  have eb : ∀ x ∈ b.elems, U x := fun x hx => ((elems_mem hU ib x).1 hx).1
  have ma : ∀ x, x ∈ a.elems ↔ memOf opsA x := fun x => by rw [elems_mem hU ia, ha x]
  have mb : ∀ x, x ∈ b.elems ↔ memOf opsB x := fun x => by rw [elems_mem hU ib, hb x]
  refine ⟨?_, ?_, ?_, ?_, ?_⟩
  · intro h g x r hx hs
    simp only [YSet.union, Option.bind_eq_some_iff] at h
    obtain ⟨t, h1, h2⟩ := h
    obtain ⟨i1, a1, -⟩ := setFold_spec (setInsert_sIns hU f') a.elems _ t n1 ea h1
    obtain ⟨i2, a2, -⟩ := setFold_spec (setInsert_sIns hU f') b.elems t c i1 eb h2
    rw [setSearch_spec hU i2 (a2 _ (a1 _ n2)) hx hs, ma, mb]
    tauto
  · intro h g x r hx hs
    obtain ⟨i1, a1⟩ := filterInto_spec U hU ib hb a.elems _ c n1 ea h
    rw [setSearch_spec hU i1 (a1 _ n2) hx hs, ma]
    simp
  · intro h g x r hx hs
    simp only [YSet.symDiff, Option.bind_eq_some_iff] at h
    obtain ⟨t, h1, h2⟩ := h
    obtain ⟨i1, a1⟩ := filterInto_spec U hU ib hb a.elems _ t n1 ea h1
    obtain ⟨i2, a2⟩ := filterInto_spec U hU ia ha b.elems t c i1 eb h2
    rw [setSearch_spec hU i2 (a2 _ (a1 _ n2)) hx hs, ma, mb]
    simp only [Bool.false_eq_true, iff_false, or_false]
    tauto
  · intro h g x r hx hs
    obtain ⟨i1, a1⟩ := filterInto_spec U hU ib hb a.elems _ c n1 ea h
    rw [setSearch_spec hU i1 (a1 _ n2) hx hs, ma]
    simp
  · intro h g x r hx hs
    obtain ⟨i1, a1, -⟩ := setFold_spec (setInsert_sIns hU f') a.elems _ c n1 ea h
    rw [setSearch_spec hU i1 (a1 _ n2) hx hs, ma]
    simp

example : ((YSet.new.run 100 [.add (.int 1), .add (.int 2)]).bind fun a => (YSet.new.run 100 [.add (.int 2), .add (.int 3)]).bind
    fun b => (a.symDiff 100 b).map YSet.elems) = some [.int 1, .int 3] := by decide +kernel

/-! ## C15 -/

theorem allIn_spec (hU : EqIdent U) {f : Nat} {o : YSet} {mo : Val → Prop} (ho : SInv U o) (ao : SAbs U o mo) :
    ∀ (l : List Val) (r : Bool), (∀ x ∈ l, U x) → allIn f o l = some r → (r = true ↔ ∀ x ∈ l, mo x) := by
  intro l
  induction l with
  | nil => intro r _ h; simp [allIn] at h; simp [← h]
  | cons x l ih =>
    intro r hl h
    simp only [allIn, Option.bind_eq_some_iff] at h
    obtain ⟨c, hc, h⟩ := h
    have hcm := setSearch_spec hU ho ao (hl x (by simp)) hc
    split at h
    · rename_i ht
      rw [ih r (fun y hy => hl y (by simp [hy])) h]
      simp [hcm.1 ht]
    · rename_i ht
      injection h with h; subst h
      simp only [Bool.false_eq_true, List.mem_cons, forall_eq_or_imp, false_iff, not_and]
      intro hm; exact absurd (hcm.2 hm) ht

/-- C15, the part that holds: if no absent element was removed (so lengths are right, C13), `a == b`, `a <= b`, `a < b`,
`a >= b`, `a > b`, whenever they complete, decide equality, inclusion and strict inclusion.
Missing: histories removing absent elements, where it is false (`C15_wrong_after_absent_removal`). -/
theorem C15_comparisons_partial (hU : EqIdent U) (opsA opsB : List SOp) (hA : ∀ op ∈ opsA, U op.elem) (hB : ∀ op ∈ opsB, U op.elem)
    (pA : removesMember (fun _ => False) opsA) (pB : removesMember (fun _ => False) opsB)
    (lA : opsA.length < 2 ^ 64) (lB : opsB.length < 2 ^ 64)
    (f : Nat) (a b : YSet) (ra : YSet.new.run f opsA = some a) (rb : YSet.new.run f opsB = some b) (f' : Nat) (r : Bool) :
    (a.eq f' b = some r → (r = true ↔ ∀ x, memOf opsA x ↔ memOf opsB x)) ∧
    (a.le f' b = some r → (r = true ↔ ∀ x, memOf opsA x → memOf opsB x)) ∧
    (a.lt f' b = some r → (r = true ↔ (∀ x, memOf opsA x → memOf opsB x) ∧ ∃ x, memOf opsB x ∧ ¬ memOf opsA x)) ∧
    (a.ge f' b = some r → (r = true ↔ ∀ x, memOf opsB x → memOf opsA x)) ∧
    (a.gt f' b = some r → (r = true ↔ (∀ x, memOf opsB x → memOf opsA x) ∧ ∃ x, memOf opsA x ∧ ¬ memOf opsB x)) := by
  obtain ⟨n1, n2, n3, n4⟩ := setNew_spec hU
  obtain ⟨ia, aa, ca⟩ := setRun_spec hU opsA n1 hA ra
  obtain ⟨ib, ab, cb⟩ := setRun_spec hU opsB n1 hB rb
  have ha : SAbs U a (memOf opsA) := aa _ n2
  have hb : SAbs U b (memOf opsB) := ab _ n2
  have ca : a.count = a.elems.length := ca _ n2 (by rw [n3, n4]; rfl) (by rw [n4]; simpa using lA) pA
  have cb : b.count = b.elems.length := cb _ n2 (by rw [n3, n4]; rfl) (by rw [n4]; simpa using lB) pB
  have ea : ∀ x ∈ a.elems, U x := fun x hx => ((elems_mem hU ia x).1 hx).1
  have eb : ∀ x ∈ b.elems, U x := fun x hx => ((elems_mem hU ib x).1 hx).1
  have ma : ∀ x, x ∈ a.elems ↔ memOf opsA x := fun x => by rw [elems_mem hU ia, ha x]
  have mb : ∀ x, x ∈ b.elems ↔ memOf opsB x := fun x => by rw [elems_mem hU ib, hb x]
  have na : a.elems.Nodup := elems_nodup hU ia
  have nb : b.elems.Nodup := elems_nodup hU ib
  -- counting
  have sub_le : ∀ {p q : List Val}, p.Nodup → (∀ x ∈ p, x ∈ q) → p.length ≤ q.length := fun hp h =>
    (List.subperm_of_subset hp h).length_le
  have sub_eq : ∀ {p q : List Val}, p.Nodup → (∀ x ∈ p, x ∈ q) → q.length ≤ p.length → ∀ x ∈ q, x ∈ p := fun hp h hl x hx =>
    ((List.subperm_of_subset hp h).perm_of_length_le hl).mem_iff.2 hx
  have sub_lt : ∀ {p q : List Val}, p.Nodup → q.Nodup → (∀ x ∈ p, x ∈ q) → (p.length < q.length ↔ ∃ x, x ∈ q ∧ x ∉ p) := by
    intro p q hp hq h
    constructor
    · intro hl
      by_contra hc
      push Not at hc
      have := sub_le hq hc
      omega
    · rintro ⟨x, hx, hn⟩
      have := sub_le hp h
      rcases Nat.lt_or_eq_of_le this with hl | he
      · exact hl
      · exact absurd (sub_eq hp h (by omega) x hx) hn
  have key_le : ∀ {r' : Bool}, allIn f' b a.elems = some r' → (r' = true ↔ ∀ x, memOf opsA x → memOf opsB x) := by
    intro r' h
    rw [allIn_spec U hU ib hb a.elems r' ea h]
    simp only [ma]
  have key_ge : ∀ {r' : Bool}, allIn f' a b.elems = some r' → (r' = true ↔ ∀ x, memOf opsB x → memOf opsA x) := by
    intro r' h
    rw [allIn_spec U hU ia ha b.elems r' eb h]
    simp only [mb]
  refine ⟨?_, ?_, ?_, ?_, ?_⟩
  · intro h
    simp only [YSet.eq, YSet.length, ca, cb] at h
    split at h
    · rename_i hne
      injection h with h; subst h
      simp only [Bool.false_eq_true, false_iff]
      intro hall
      apply hne
      apply Nat.le_antisymm
      · exact sub_le na (fun x hx => (mb x).2 ((hall x).1 ((ma x).1 hx)))
      · exact sub_le nb (fun x hx => (ma x).2 ((hall x).2 ((mb x).1 hx)))
    · rename_i he
      rw [key_le h]
      constructor
      · intro hs x
        refine ⟨hs x, fun hx => ?_⟩
        exact (ma x).1 (sub_eq na (fun y hy => (mb y).2 (hs y ((ma y).1 hy))) (by omega) x ((mb x).2 hx))
      · intro hs x; exact (hs x).1
  · intro h
    simp only [YSet.le, YSet.length, ca, cb, Option.map_eq_some_iff] at h
    obtain ⟨r', h1, rfl⟩ := h
    rw [Bool.and_eq_true, key_le h1, decide_eq_true_eq]
    refine ⟨fun h => h.1, fun h => ⟨h, ?_⟩⟩
    exact sub_le na (fun x hx => (mb x).2 (h x ((ma x).1 hx)))
  · intro h
    simp only [YSet.lt, YSet.length, ca, cb, Option.map_eq_some_iff] at h
    obtain ⟨r', h1, rfl⟩ := h
    rw [Bool.and_eq_true, key_le h1, decide_eq_true_eq]
    refine and_congr_right fun h => ?_
    rw [sub_lt na nb (fun x hx => (mb x).2 (h x ((ma x).1 hx)))]
    simp only [ma, mb]
  · intro h
    simp only [YSet.ge, YSet.length, ca, cb, Option.map_eq_some_iff] at h
    obtain ⟨r', h1, rfl⟩ := h
    rw [Bool.and_eq_true, key_ge h1, decide_eq_true_eq]
    refine ⟨fun h => h.1, fun h => ⟨h, ?_⟩⟩
    exact sub_le nb (fun x hx => (ma x).2 (h x ((mb x).1 hx)))
  · intro h
    simp only [YSet.gt, YSet.length, ca, cb, Option.map_eq_some_iff] at h
    obtain ⟨r', h1, rfl⟩ := h
    rw [Bool.and_eq_true, key_ge h1, decide_eq_true_eq]
    refine and_congr_right fun h => ?_
    rw [gt_iff_lt, sub_lt nb na (fun x hx => (ma x).2 (h x ((mb x).1 hx)))]
    simp only [ma, mb]

example : ((YSet.new.run 100 [.add (.int 1)]).bind fun a => (YSet.new.run 100 [.add (.int 2), .add (.int 1)]).bind
    fun b => (a.lt 100 b)) = some true := by decide +kernel

/-- C15 is false after an absent element was removed: two empty sets are then unequal, and the one is not `<=` the other. -/
theorem C15_wrong_after_absent_removal : ∃ a, YSet.new.run 100 [.rm (.int 7)] = some a ∧ a.elems = [] ∧
    a.eq 100 YSet.new = some false ∧ a.le 100 YSet.new = some false := by
  refine ⟨_, rfl, ?_, ?_, ?_⟩ <;> decide +kernel

end

/-! ## C16 -/

/-- C16 is false: `1 == 1.0`, but adding both makes a set of two elements (equal values may hash differently). -/
theorem C16_equal_values_two_elements : isEqual (.int 1) (.float 0x3ff0000000000000#64) = true ∧
    (YSet.new.run 100 [.add (.int 1), .add (.float 0x3ff0000000000000#64)]).map YSet.length = some 2 := by
  decide +kernel

/-- C16, what holds: adding a value equal and of the same type leaves one element (no NaN, −0.0 or `undef`). -/
theorem C16_same_type_partial (x y : Val) (hx : GoodKey x) (hy : GoodKey y) (ht : x.tag = y.tag) (he : isEqual x y = true)
    (f : Nat) (s : YSet) (hr : YSet.new.run f [.add x, .add y] = some s) : s.length = 1 ∧ s.elems = [x] := by
  have hxy : x = y := (isEqualTyped_good hy (.inr (.inr hx))).1 (by simp [isEqualTyped, ht, he])
  subst hxy
  have hU : EqIdent (fun z => z = x) := by
    intro z hz; subst hz
    exact ⟨hx, fun y hy _ => hy.symm⟩
  obtain ⟨h1, h2, h3, h4⟩ := setNew_spec hU
  have hops : ∀ op ∈ [SOp.add x, SOp.add x], (fun z => z = x) op.elem := by simp [SOp.elem]
  obtain ⟨i, a, c⟩ := setRun_spec hU [SOp.add x, SOp.add x] h1 hops hr
  obtain ⟨-, hn, hm⟩ := C13_membership (fun z => z = x) hU [SOp.add x, SOp.add x] hops f s hr
  have hc := c _ h2 (by rw [h3, h4]; rfl) (by rw [h4]; simp) (by simp [removesMember])
  have hmem : ∀ z, z ∈ s.elems ↔ z = x := by
    intro z
    rw [elems_mem hU i, a _ h2 z]
    simp [memFrom, SOp.apply]
  have he : s.elems = [x] := by
    have hp : s.elems.Perm [x] := (List.perm_ext_iff_of_nodup hn (by simp)).2 (fun z => by rw [hmem]; simp)
    exact List.perm_singleton.1 hp
  exact ⟨by rw [YSet.length, hc, he]; rfl, he⟩

example : GoodKey (.float 0x3ff0000000000000#64) := ⟨by decide +kernel, by decide⟩

/-! ## C69 -/

/-- a set of the ints 0 … 23 -/
def twentyFour : List SOp := (List.range 24).map fun n => SOp.add (.int (BitVec.ofNat 64 n))

/-- C69 is false: `clear` removes elements while iterating over the slots, removal may shrink the set and move elements
behind the iterator, and of a set with the 24 elements 0 … 23 five survive `clear()`. -/
theorem C69_clear_leaves_elements :
    ∃ s s', YSet.new.run 100 twentyFour = some s ∧ s.clearLoop 100 100 0 = some s' ∧ s'.length = 5 ∧ s'.elems.length = 5 := by
  refine ⟨(YSet.new.run 100 twentyFour).getD YSet.new, (((YSet.new.run 100 twentyFour).getD YSet.new).clearLoop 100 100 0).getD YSet.new,
    ?_, ?_, ?_, ?_⟩ <;> decide +kernel

/-- C69, the part that holds: a set that never grew (at most 23 elements at any time keep `base` at 30) is empty after
`clear()`.  Missing: larger sets, where it is false. -/
theorem C69_clear_small_partial (U : Val → Prop) (hU : EqIdent U) (ops : List SOp) (hops : ∀ op ∈ ops, U op.elem) (f : Nat)
    (s : YSet) (hr : YSet.new.run f ops = some s) (hb : s.base < 60) (f' g : Nat) (s' : YSet)
    (hc : s.clearLoop f' g 0 = some s') : s'.elems = [] := by
  obtain ⟨h1, h2, h3, h4⟩ := setNew_spec hU
  obtain ⟨i, -, -⟩ := setRun_spec hU ops h1 hops hr
  have key : ∀ (g : Nat) (s : YSet) (n : Nat), SInv U s → s.base < 60 → (∀ k x, k < n → s.items[k]? = some x → elemLive x = false) →
      s.clearLoop f' g n = some s' → s'.elems = [] := by
    intro g
    induction g with
    | zero => intro s n _ _ _ h; simp [YSet.clearLoop] at h
    | succ g ih =>
      intro s n hi hb hlow h
      simp only [YSet.clearLoop] at h
      split at h
      · rename_i hn
        split at h
        · simp at h
        · rename_i it hit
          simp only [Option.bind_eq_some_iff] at h
          obtain ⟨s1, hs1, h⟩ := h
          split at hs1
          · rename_i hlive
            have hUx : U it := by
              rcases hi.kinv.valid n it hit with rfl | rfl | hg
              · simp [elemLive, Val.tag] at hlive
              · simp [elemLive, Val.tag] at hlive
              · exact hg
            have hs1' := hs1
            simp only [YSet.rm, (hU it hUx).1.hashable, if_true, Option.bind_eq_some_iff] at hs1
            obtain ⟨s2, hs2, items', hl, he⟩ := hs1
            have : s2 = s := by
              have hno : ∀ ins, s.resizeWith ins f' (s.base / 2) = some s := by
                intro ins; rw [YSet.resizeWith, if_pos (by unfold SET_BASESIZE; omega)]
              rw [hno] at hs2
              split at hs2 <;> (injection hs2 with hs2; exact hs2.symm)
            subst this
            injection he with he
            obtain ⟨-, -, -, -, hpt, -⟩ := setRmLoop_spec hU hUx f' items' 0 s2 hi hl
            obtain ⟨i1, a1, -⟩ := setRm_spec hU hi hUx hs1'
            refine ih s1 (n + 1) i1 (by rw [← he]; exact hb) ?_ h
            intro k x hk hx
            rw [← he] at hx
            rcases Nat.lt_or_eq_of_le (Nat.le_of_lt_succ hk) with hl' | rfl
            · rcases hpt k with hp | ⟨-, hp⟩
              · exact hlow k x hl' (by rw [← hp]; exact hx)
              · rw [hp] at hx; injection hx with hx; subst hx; rfl
            · have hnot : it ∉ s1.items := by
                intro hm
                have := (a1 _ (fun y => Iff.rfl) it).1 ⟨hUx, hm⟩
                exact this.1 rfl
              rcases hpt k with hp | ⟨-, hp⟩
              · rw [hit] at hp
                exact absurd (by rw [← he]; exact List.mem_of_getElem? hp) hnot
              · rw [hp] at hx; injection hx with hx; subst hx; rfl
          · rename_i hlive
            injection hs1 with hs1; subst hs1
            refine ih s (n + 1) hi hb ?_ h
            intro k x hk hx
            rcases Nat.lt_or_eq_of_le (Nat.le_of_lt_succ hk) with hl' | rfl
            · exact hlow k x hl' hx
            · rw [hit] at hx; injection hx with hx; subst hx; simpa using hlive
      · rename_i hn
        injection h with h; subst h
        rw [YSet.elems, List.filter_eq_nil_iff]
        intro x hx
        obtain ⟨k, hk⟩ := List.getElem?_of_mem hx
        have hlt : k < s.items.length := by
          by_contra hcc
          rw [List.getElem?_eq_none (by omega)] at hk; simp at hk
        rw [hlow k x (by rw [hi.len] at hlt; omega) hk]; simp
  exact key g s 0 i hb (fun k x hk => by omega) hc

example : ((YSet.new.run 100 [.add (.int 1), .add (.int 2), .add (.int 33)]).bind fun s => (s.clearLoop 100 100 0).map fun t =>
    (s.base, t.length)) = some (30, 0) := by decide +kernel

end Yasl
