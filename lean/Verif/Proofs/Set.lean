import Verif.Proofs.Table
import Verif.Spec.Set
/-! Invariants of sets. -/
namespace Yasl

variable {U : Val → Prop}

theorem EqIdent.gok (hU : EqIdent U) : GOK U := ⟨fun h => (hU _ h).1, fun h => (hU _ h).1⟩

theorem isEqual_good (hU : EqIdent U) {a x : Val} (hx : U x) (ha : a = .undef ∨ a = .end_ ∨ U a) :
    isEqual a x = true ↔ a = x := by
  constructor
  · intro h
    rcases ha with rfl | rfl | ha
    · have := (hU x hx).1
      cases x <;> simp_all [isEqual, Val.isNum, GoodKey]
    · have := (hU x hx).1
      cases x <;> simp_all [isEqual, Val.isNum, GoodKey]
    · exact (hU a ha).2 x hx h
  · rintro rfl
    have := (isEqualTyped_good (hU a hx).1 (.inr (.inr (hU a hx).1))).2 rfl
    simp only [isEqualTyped, Bool.and_eq_true] at this
    exact this.2

structure SInv (U : Val → Prop) (s : YSet) : Prop where
  len : s.items.length = s.size
  pos : 0 < s.size
  kinv : KInv U s.items

/-- the set represents `m` -/
def SAbs (U : Val → Prop) (s : YSet) (m : Val → Prop) : Prop := ∀ x, (U x ∧ x ∈ s.items) ↔ m x

theorem SInv.slot {s : YSet} (h : SInv U s) (k : Val) (j : Nat) : ∃ it, s.items[getHash k s.size j]? = some it := by
  have := C06_probe_in_bounds k s.size j h.pos
  exact ⟨_, List.getElem?_eq_getElem (by rw [h.len]; exact this)⟩

theorem tag_undef {v : Val} : v.tag = .undef ↔ v = .undef := by cases v <;> simp [Val.tag]
theorem tag_end {v : Val} : v.tag = .end_ ↔ v = .end_ := by cases v <;> simp [Val.tag]

theorem SInv.tests (hU : EqIdent U) {s : YSet} (h : SInv U s) {x : Val} (hx : U x) {i : Nat} {it : Val}
    (hi : s.items[i]? = some it) :
    (isEqual it x = true ↔ it = x) ∧ ((it.tag ≠ .end_ ∧ isEqual it x = true) ↔ it = x) := by
  have hv := h.kinv.valid i it hi
  have he := isEqual_good hU hx hv
  refine ⟨he, ?_⟩
  rw [he]
  refine ⟨fun h => h.2, fun h => ⟨?_, h⟩⟩
  rw [h, Ne, tag_end]; rintro rfl; exact hU.gok.nend hx

/-! ## loops -/

theorem setInsertLoop_spec (hU : EqIdent U) {s : YSet} (h : SInv U s) {x : Val} (hx : U x) : ∀ {f j idx : Nat} {fd : Bool},
    setInsertLoop s.size s.items x f (getHash x s.size j) (j + 1) = some (idx, fd) →
    ∃ j', j ≤ j' ∧ getHash x s.size j' = idx ∧
      (∀ m, j ≤ m → m < j' → s.items[getHash x s.size m]? ≠ some .undef ∧ s.items[getHash x s.size m]? ≠ some x) ∧
      ((s.items[idx]? = some .undef ∧ fd = false) ∨ (s.items[idx]? = some x ∧ fd = true)) := by
  intro f
  induction f with
  | zero => intro j idx fd hr; simp [setInsertLoop] at hr
  | succ f ih =>
    intro j idx fd hr
    obtain ⟨it, hit⟩ := h.slot x j
    obtain ⟨-, h4⟩ := h.tests hU hx hit
    simp only [setInsertLoop, hit, h4, tag_undef] at hr
    split at hr
    · rename_i hu; subst hu
      injection hr with hr; injection hr with h1 h2; subst h1 h2
      exact ⟨j, le_refl _, rfl, fun m a b => by omega, .inl ⟨hit, rfl⟩⟩
    · rename_i hu
      split at hr
      · rename_i he; subst he
        injection hr with hr; injection hr with h1 h2; subst h1 h2
        exact ⟨j, le_refl _, rfl, fun m a b => by omega, .inr ⟨hit, rfl⟩⟩
      · rename_i he
        obtain ⟨j', hj, hp, hpre, hend⟩ := ih hr
        refine ⟨j', by omega, hp, fun m a b => ?_, hend⟩
        rcases Nat.eq_or_lt_of_le a with rfl | hl
        · rw [hit]; simp [hu, he]
        · exact hpre m hl b

theorem setSearchLoop_spec (hU : EqIdent U) {s : YSet} (h : SInv U s) {x : Val} (hx : U x) : ∀ {f j : Nat} {r : Bool},
    setSearchLoop s x f (getHash x s.size j) (j + 1) = some r →
    ∃ j', j ≤ j' ∧ (∀ m, j ≤ m → m < j' → s.items[getHash x s.size m]? ≠ some .undef ∧ s.items[getHash x s.size m]? ≠ some x) ∧
      ((s.items[getHash x s.size j']? = some .undef ∧ r = false) ∨ (s.items[getHash x s.size j']? = some x ∧ r = true)) := by
  intro f
  induction f with
  | zero => intro j r hr; simp [setSearchLoop] at hr
  | succ f ih =>
    intro j r hr
    obtain ⟨it, hit⟩ := h.slot x j
    obtain ⟨h4, -⟩ := h.tests hU hx hit
    simp only [setSearchLoop, hit, h4, tag_undef] at hr
    split at hr
    · rename_i hu; subst hu
      injection hr with hr
      exact ⟨j, le_refl _, fun m a b => by omega, .inl ⟨hit, hr.symm⟩⟩
    · rename_i hu
      split at hr
      · rename_i he; subst he
        injection hr with hr
        exact ⟨j, le_refl _, fun m a b => by omega, .inr ⟨hit, hr.symm⟩⟩
      · rename_i he
        obtain ⟨j', hj, hpre, hend⟩ := ih hr
        refine ⟨j', by omega, fun m a b => ?_, hend⟩
        rcases Nat.eq_or_lt_of_le a with rfl | hl
        · rw [hit]; simp [hu, he]
        · exact hpre m hl b

theorem setSearch_spec (hU : EqIdent U) {s : YSet} (h : SInv U s) {m : Val → Prop} (ha : SAbs U s m) {x : Val} (hx : U x)
    {f : Nat} {r : Bool} (hr : s.search f x = some r) : r = true ↔ m x := by
  obtain ⟨j, -, hpre, hend⟩ := setSearchLoop_spec hU h hx (j := 0) hr
  rcases hend with ⟨hu, rfl⟩ | ⟨hit, rfl⟩
  · have habs := h.kinv.absent hx (j := j) (fun m hm => by rw [h.len]; exact (hpre m (by omega) hm).2)
      (by rw [h.len]; exact hu) hU.gok
    simp only [Bool.false_eq_true, false_iff]
    intro hm
    obtain ⟨i, hi⟩ := List.getElem?_of_mem ((ha x).2 hm).2
    exact habs i hi
  · simp only [true_iff]
    exact (ha x).1 ⟨hx, List.mem_of_getElem? hit⟩

/-! ## elements -/

theorem elems_mem (hU : EqIdent U) {s : YSet} (h : SInv U s) (x : Val) : x ∈ s.elems ↔ U x ∧ x ∈ s.items := by
  simp only [YSet.elems, List.mem_filter, elemLive]
  constructor
  · rintro ⟨hm, hl⟩
    obtain ⟨i, hi⟩ := List.getElem?_of_mem hm
    rcases h.kinv.valid i x hi with rfl | rfl | hg
    · simp [Val.tag] at hl
    · simp [Val.tag] at hl
    · exact ⟨hg, hm⟩
  · rintro ⟨hg, hm⟩
    refine ⟨hm, ?_⟩
    have h1 : x.tag ≠ .end_ := by rw [Ne, tag_end]; rintro rfl; exact hU.gok.nend hg
    have h2 : x.tag ≠ .undef := by rw [Ne, tag_undef]; rintro rfl; exact hU.gok.nundef hg
    simp [h1, h2]

theorem elems_nodup (hU : EqIdent U) {s : YSet} (h : SInv U s) : s.elems.Nodup := by
  have key : ∀ (l : List Val) (off : Nat), (∀ (i : Nat) it, l[i]? = some it → s.items[off + i]? = some it) →
      (l.filter elemLive).Nodup := by
    intro l
    induction l with
    | nil => intros; simp
    | cons a l ih =>
      intro off hl
      have ih' := ih (off + 1) (fun i it hi => by
        have := hl (i + 1) it (by simpa using hi)
        rwa [show off + 1 + i = off + (i + 1) by omega])
      rw [List.filter_cons]
      split
      · rename_i hlive
        rw [List.nodup_cons]
        refine ⟨?_, ih'⟩
        intro hc
        rw [List.mem_filter] at hc
        obtain ⟨i, hi⟩ := List.getElem?_of_mem hc.1
        have h1 := hl 0 a rfl
        have h2 := hl (i + 1) a (by simpa using hi)
        have hga : U a := by
          have : a ∈ s.elems := by
            simp only [YSet.elems, List.mem_filter]; exact ⟨List.mem_of_getElem? h1, hlive⟩
          exact ((elems_mem hU h a).1 this).1
        have := h.kinv.uniq (off + 0) (off + (i + 1)) a hga h1 h2
        omega
      · exact ih'
  exact key s.items 0 (fun i it hi => by simpa using hi)

/-! ## insertion -/

theorem elemLive_good (hU : EqIdent U) {x : Val} (h : U x) : elemLive x = true := by
  have h1 : x.tag ≠ .end_ := by rw [Ne, tag_end]; rintro rfl; exact hU.gok.nend h
  have h2 : x.tag ≠ .undef := by rw [Ne, tag_undef]; rintro rfl; exact hU.gok.nundef h
  simp [elemLive, h1, h2]

theorem setInsertHere_spec (hU : EqIdent U) {s s' : YSet} (h : SInv U s) {x : Val} (hx : U x) {f : Nat}
    (hr : s.insertHere f x = some s') :
    SInv U s' ∧ (∀ m, SAbs U s m → SAbs U s' (fun y => y = x ∨ m y)) ∧
    ((s'.count = s.count ∧ s'.elems.length = s.elems.length) ∨
     (s'.count = (s.count + 1) % 2 ^ 64 ∧ s'.elems.length = s.elems.length + 1)) := by
  simp only [YSet.insertHere, Option.map_eq_some_iff] at hr
  obtain ⟨⟨idx, fd⟩, hl, hr⟩ := hr
  obtain ⟨j, -, hpj, hpre, hend⟩ := setInsertLoop_spec hU h hx (j := 0) hl
  have hlt : idx < s.items.length := by
    by_contra hc
    rw [List.getElem?_eq_none (by omega)] at hend; simp at hend
  have hel : ∀ t : YSet, t.elems.length = t.items.countP elemLive := fun t => by
    rw [List.countP_eq_length_filter]; rfl
  rcases hend with ⟨hu, rfl⟩ | ⟨hit, rfl⟩
  · have habs := h.kinv.absent hx (j := j) (fun m hm => by rw [h.len]; exact (hpre m (by omega) hm).2)
      (by rw [h.len, hpj]; exact hu) hU.gok
    have hk := h.kinv.insertNew hU.gok hx (j := j) (fun m hm => by rw [h.len]; exact (hpre m (by omega) hm).1)
      (by rw [h.len, hpj]; exact hu) habs
    rw [h.len, hpj] at hk
    have hgx : s.items[idx] = .undef := by rw [List.getElem?_eq_getElem hlt] at hu; injection hu
    subst hr
    refine ⟨⟨by simp [h.len], h.pos, hk⟩, ?_, .inr ⟨rfl, ?_⟩⟩
    · intro m hm y
      dsimp only
      rw [mem_set_iff _ _ hlt, ← hm y]
      constructor
      · rintro ⟨hy, rfl | ⟨i, -, hi⟩⟩
        · exact .inl rfl
        · exact .inr ⟨hy, List.mem_of_getElem? hi⟩
      · rintro (rfl | ⟨hy, hm'⟩)
        · exact ⟨hx, .inl rfl⟩
        · refine ⟨hy, .inr ?_⟩
          obtain ⟨i, hi⟩ := List.getElem?_of_mem hm'
          refine ⟨i, ?_, hi⟩
          rintro rfl
          rw [hu] at hi; injection hi with hi; subst hi; exact hU.gok.nundef hy
    · rw [hel, hel]
      dsimp only
      rw [List.countP_set hlt, hgx, elemLive_good hU hx]
      simp [elemLive, Val.tag]
  · have hsame : s.items.set idx x = s.items := by
      apply List.ext_getElem?
      intro i; rw [List.getElem?_set]; split
      · rename_i he; subst he; rw [hit]
      · rfl
    simp only [hsame, if_true] at hr
    subst hr
    refine ⟨h, ?_, .inl ⟨rfl, rfl⟩⟩
    intro m hm y
    rw [hm y]
    refine ⟨.inr, ?_⟩
    rintro (rfl | hy)
    · exact (hm y).1 ⟨hx, List.mem_of_getElem? hit⟩
    · exact hy

theorem setNewSized_spec (hU : EqIdent U) {f base : Nat} {s : YSet} (h : YSet.newSized f base = some s) :
    SInv U s ∧ SAbs U s (fun _ => False) ∧ s.count = 0 ∧ s.elems = [] := by
  simp only [YSet.newSized, Option.map_eq_some_iff] at h
  obtain ⟨n, hn, rfl⟩ := h
  obtain ⟨hp, -, -⟩ := nextPrimeC_some SqrtOK_sqrt.lower SqrtOK_sqrt.upper hn
  refine ⟨⟨by simp, hp.pos, KInv.replicate _ hU.gok _⟩, ?_, rfl, ?_⟩
  · intro x
    simp only [iff_false, not_and]
    intro hx hm
    rw [List.eq_of_mem_replicate hm] at hx; exact hU.gok.nundef hx
  · simp only [YSet.elems, List.filter_eq_nil_iff]
    intro x hx
    rw [List.eq_of_mem_replicate hx]; decide

/-- what an insertion function guarantees, including the count -/
def SIns (U : Val → Prop) (ins : YSet → Val → Option YSet) : Prop :=
  ∀ s s' x, SInv U s → U x → ins s x = some s' → SInv U s' ∧ (∀ m, SAbs U s m → SAbs U s' (fun y => y = x ∨ m y)) ∧
    (s.count = s.elems.length → s.elems.length + 1 < 2 ^ 64 →
      s'.count = s'.elems.length ∧ s'.elems.length ≤ s.elems.length + 1)

theorem setFold_spec {ins : YSet → Val → Option YSet} (hins : SIns U ins) : ∀ (l : List Val) (s s' : YSet), SInv U s →
    (∀ x ∈ l, U x) → l.foldlM ins s = some s' →
    SInv U s' ∧ (∀ m, SAbs U s m → SAbs U s' (fun y => y ∈ l ∨ m y)) ∧
    (s.count = s.elems.length → s.elems.length + l.length < 2 ^ 64 →
      s'.count = s'.elems.length ∧ s'.elems.length ≤ s.elems.length + l.length) := by
  intro l
  induction l with
  | nil =>
    intro s s' h _ hr
    simp only [List.foldlM_nil, Option.pure_def, Option.some.injEq] at hr
    subst hr
    exact ⟨h, fun m hm => by simpa using hm, fun hc _ => ⟨hc, by simp⟩⟩
  | cons a l ih =>
    intro s s' h hl hr
    simp only [List.foldlM_cons, Option.bind_eq_bind, Option.bind_eq_some_iff] at hr
    obtain ⟨s1, h1, h2⟩ := hr
    obtain ⟨i1, a1, c1⟩ := hins s s1 a h (hl a (by simp)) h1
    obtain ⟨i2, a2, c2⟩ := ih s1 s' i1 (fun x hx => hl x (by simp [hx])) h2
    refine ⟨i2, fun m hm => ?_, fun hc hb => ?_⟩
    · have := a2 _ (a1 m hm)
      intro y; rw [this y]; dsimp only; rw [List.mem_cons]; tauto
    · rw [List.length_cons] at hb ⊢
      obtain ⟨d1, d2⟩ := c1 hc (by omega)
      obtain ⟨e1, e2⟩ := c2 d1 (by omega)
      exact ⟨e1, by omega⟩

theorem setResize_spec (hU : EqIdent U) {ins : YSet → Val → Option YSet} (hins : SIns U ins) {f base : Nat} {s s' : YSet}
    (h : SInv U s) (hr : s.resizeWith ins f base = some s') :
    SInv U s' ∧ (∀ m, SAbs U s m → SAbs U s' m) ∧
    (s.count = s.elems.length → s.elems.length < 2 ^ 64 → s'.count = s'.elems.length ∧ s'.elems.length ≤ s.elems.length) := by
  unfold YSet.resizeWith at hr
  split at hr
  · injection hr with hr; subst hr; exact ⟨h, fun m hm => hm, fun hc _ => ⟨hc, le_refl _⟩⟩
  · simp only [Option.bind_eq_some_iff] at hr
    obtain ⟨ns, hns, hr⟩ := hr
    obtain ⟨i0, a0, c0, e0⟩ := setNewSized_spec hU hns
    obtain ⟨i1, a1, c1⟩ := setFold_spec hins s.elems ns s' i0 (fun x hx => ((elems_mem hU h x).1 hx).1) hr
    refine ⟨i1, fun m hm y => ?_, fun hc hb => ?_⟩
    · rw [a1 _ a0 y]; dsimp only; rw [elems_mem hU h, hm y]; simp
    · have := c1 (by rw [c0, e0]; rfl) (by rw [e0]; simpa using hb)
      rw [e0] at this; simpa using this

theorem setInsert_sIns (hU : EqIdent U) (f : Nat) : SIns U (YSet.insert f) := by
  induction f with
  | zero => intro s s' x _ _ hr; simp [YSet.insert] at hr
  | succ f ih =>
    intro s s' x h hx hr
    simp only [YSet.insert, (hU x hx).1.hashable, if_true, Option.bind_eq_some_iff] at hr
    obtain ⟨s1, h1, h2⟩ := hr
    have hres : SInv U s1 ∧ (∀ m, SAbs U s m → SAbs U s1 m) ∧ (s.count = s.elems.length → s.elems.length < 2 ^ 64 →
        s1.count = s1.elems.length ∧ s1.elems.length ≤ s.elems.length) := by
      split at h1
      · exact setResize_spec hU ih h h1
      · injection h1 with h1; subst h1; exact ⟨h, fun m hm => hm, fun hc _ => ⟨hc, le_refl _⟩⟩
    obtain ⟨i1, a1, c1⟩ := hres
    obtain ⟨i2, a2, c2⟩ := setInsertHere_spec hU i1 hx h2
    refine ⟨i2, fun m hm => a2 _ (a1 m hm), fun hc hb => ?_⟩
    obtain ⟨d1, d2⟩ := c1 hc (by omega)
    rcases c2 with ⟨e1, e2⟩ | ⟨e1, e2⟩
    · exact ⟨by rw [e1, e2, d1], by omega⟩
    · rw [Nat.mod_eq_of_lt (by omega)] at e1
      exact ⟨by rw [e1, e2, d1], by omega⟩

/-! ## removal -/

theorem setRmLoop_spec (hU : EqIdent U) {x : Val} (hx : U x) : ∀ (f : Nat) (items' : List Val) (j : Nat) (s : YSet),
    SInv U s → setRmLoop x s.size f s.items (getHash x s.size j) (j + 1) = some items' →
    ∃ j', j ≤ j' ∧ s.items[getHash x s.size j']? = some .undef ∧ SInv U { s with items := items' } ∧
      (∀ i : Nat, items'[i]? = s.items[i]? ∨ (s.items[i]? = some x ∧ items'[i]? = some .end_)) ∧
      (∀ m, j ≤ m → m < j' → items'[getHash x s.size m]? ≠ some x) := by
  intro f
  induction f with
  | zero => intro items' j s _ hr; simp [setRmLoop] at hr
  | succ f ih =>
    intro items' j s h hr
    obtain ⟨it, hit⟩ := h.slot x j
    obtain ⟨-, h4⟩ := h.tests hU hx hit
    have hlt : getHash x s.size j < s.items.length := by rw [h.len]; exact C06_probe_in_bounds _ _ _ h.pos
    simp only [setRmLoop, hit, h4, tag_undef] at hr
    have hxe : x ≠ .end_ := by rintro rfl; exact hU.gok.nend hx
    split at hr
    · rename_i hu
      injection hr with hr; subst hr; subst hu
      exact ⟨j, le_refl _, hit, h, fun i => .inl rfl, fun m a b => by omega⟩
    · rename_i hu
      split at hr
      · rename_i he; subst he
        let s1 : YSet := { s with items := s.items.set (getHash it s.size j) .end_ }
        have hS1 : SInv U s1 := ⟨by simp [s1, h.len], h.pos, h.kinv.tomb hU.gok hx hit⟩
        obtain ⟨j', hj', hend, hT, hpt, hgone⟩ := ih items' (j + 1) s1 hS1 hr
        have e1 : s1.items[getHash it s.size j]? = some .end_ := by
          simp only [s1]; rw [List.getElem?_set]; simp [hlt]
        have here : items'[getHash it s.size j]? = some .end_ := by
          rcases hpt (getHash it s.size j) with hp | ⟨-, hp⟩
          · rw [hp, e1]
          · exact hp
        refine ⟨j', by omega, ?_, hT, ?_, ?_⟩
        · simp only [s1] at hend
          rw [List.getElem?_set] at hend
          split at hend
          · simp at hend
          · exact hend
        · intro i
          by_cases hi : getHash it s.size j = i
          · subst hi; right; exact ⟨hit, here⟩
          · have e2 : s1.items[i]? = s.items[i]? := by
              simp only [s1]; rw [List.getElem?_set]; simp [hi]
            rw [← e2]; exact hpt i
        · intro m hm hm'
          rcases Nat.eq_or_lt_of_le hm with rfl | hl
          · rw [here]; intro hc; injection hc with hc; exact hxe hc.symm
          · exact hgone m hl hm'
      · rename_i he
        obtain ⟨j', hj', hend, hT, hpt, hgone⟩ := ih items' (j + 1) s h hr
        refine ⟨j', by omega, hend, hT, hpt, ?_⟩
        intro m hm hm'
        rcases Nat.eq_or_lt_of_le hm with rfl | hl
        · rcases hpt (getHash x s.size j) with hp | ⟨hv, hv'⟩
          · rw [hp, hit]; simp [he]
          · rw [hv']; intro hc; injection hc with hc; exact hxe hc.symm
        · exact hgone m hl hm'

theorem setRm_spec (hU : EqIdent U) {s s' : YSet} (h : SInv U s) {x : Val} (hx : U x) {f : Nat} (hr : s.rm f x = some s') :
    SInv U s' ∧ (∀ m, SAbs U s m → SAbs U s' (fun y => y ≠ x ∧ m y)) ∧
    (s.count = s.elems.length → s.elems.length < 2 ^ 64 → x ∈ s.items →
      s'.count = s'.elems.length ∧ s'.elems.length + 1 ≤ s.elems.length) := by
  simp only [YSet.rm, (hU x hx).1.hashable, if_true, Option.bind_eq_some_iff] at hr
  obtain ⟨s1, h1, items', h2, hr⟩ := hr
  injection hr with hr
  have hres : SInv U s1 ∧ (∀ m, SAbs U s m → SAbs U s1 m) ∧ (s.count = s.elems.length → s.elems.length < 2 ^ 64 →
      s1.count = s1.elems.length ∧ s1.elems.length ≤ s.elems.length) := by
    split at h1
    · exact setResize_spec hU (setInsert_sIns hU f) h h1
    · injection h1 with h1; subst h1; exact ⟨h, fun m hm => hm, fun hc _ => ⟨hc, le_refl _⟩⟩
  obtain ⟨i1, a1, c1⟩ := hres
  obtain ⟨j', -, hend, hT, hpt, hgone⟩ := setRmLoop_spec hU hx f items' 0 s1 i1 h2
  have hxe : x ≠ .end_ := by rintro rfl; exact hU.gok.nend hx
  have hnot : x ∉ items' := by
    intro hm
    obtain ⟨i, hi⟩ := List.getElem?_of_mem hm
    have hit : s1.items[i]? = some x := by
      rcases hpt i with hp | ⟨-, hv'⟩
      · rw [← hp, hi]
      · rw [hi] at hv'; injection hv' with hv'; exact absurd hv' hxe
    obtain ⟨j, hj, hfirst⟩ := i1.kinv.first hx hit
    rw [i1.len] at hj hfirst
    have hjj : j < j' := by
      rcases Nat.lt_trichotomy j j' with hl | rfl | hg
      · exact hl
      · rw [hj, hit] at hend
        injection hend with hend; subst hend; exact absurd hx hU.gok.nundef
      · exact absurd hend (hfirst j' hg).1
    apply hgone j (by omega) hjj
    rw [hj]; exact hi
  subst hr
  refine ⟨⟨hT.len, hT.pos, hT.kinv⟩, ?_, ?_⟩
  · intro m hm y
    dsimp only
    rw [← a1 m hm y]
    constructor
    · rintro ⟨hy, hmem⟩
      refine ⟨fun e => hnot (e ▸ hmem), hy, ?_⟩
      obtain ⟨i, hi⟩ := List.getElem?_of_mem hmem
      rcases hpt i with hp | ⟨-, hv'⟩
      · exact List.mem_of_getElem? (by rw [← hp, hi])
      · rw [hi] at hv'; injection hv' with hv'; subst hv'; exact absurd hy hU.gok.nend
    · rintro ⟨hne, hy, hmem⟩
      refine ⟨hy, ?_⟩
      obtain ⟨i, hi⟩ := List.getElem?_of_mem hmem
      rcases hpt i with hp | ⟨hv, -⟩
      · exact List.mem_of_getElem? (by rw [hp, hi])
      · rw [hi] at hv; injection hv with hv; exact absurd hv hne
  · intro hc hb hxm
    obtain ⟨d1, d2⟩ := c1 hc hb
    have hx1 : x ∈ s1.items := ((a1 _ (fun y => Iff.rfl) x).2 ⟨hx, hxm⟩).2
    obtain ⟨i, hi⟩ := List.getElem?_of_mem hx1
    have hlt : i < s1.items.length := by
      by_contra hcc
      rw [List.getElem?_eq_none (by omega)] at hi; simp at hi
    have hset : items' = s1.items.set i .end_ := by
      apply List.ext_getElem?
      intro k
      rw [List.getElem?_set]
      rcases hpt k with hp | ⟨g1, g2⟩
      · rw [hp]; split
        · rename_i he; subst he
          rw [hi] at hp; exact absurd (List.mem_of_getElem? hp) hnot
        · rfl
      · have := i1.kinv.uniq i k x hx hi g1
        subst this; rw [if_pos rfl, g2, if_pos hlt]
    have hg : s1.items[i] = x := by rw [List.getElem?_eq_getElem hlt] at hi; injection hi
    have hel : ∀ t : YSet, t.elems.length = t.items.countP elemLive := fun t => by
      rw [List.countP_eq_length_filter]; rfl
    have hpos : 0 < s1.items.countP elemLive := List.countP_pos_iff.2 ⟨x, hx1, elemLive_good hU hx⟩
    have hl : ({ s1 with items := items', count := (s1.count + (2 ^ 64 - 1)) % 2 ^ 64 } : YSet).elems.length =
        s1.elems.length - 1 := by
      rw [hel, hel]
      dsimp only
      rw [hset, List.countP_set hlt, hg, elemLive_good hU hx]
      simp [elemLive, Val.tag]
    have hl1 : 0 < s1.elems.length := by rw [hel]; exact hpos
    rw [hl]
    refine ⟨?_, by omega⟩
    dsimp only
    rw [d1]; omega

/-! ## histories -/

theorem setNew_spec (hU : EqIdent U) : SInv U YSet.new ∧ SAbs U YSet.new (fun _ => False) ∧ YSet.new.count = 0 ∧
    YSet.new.elems = [] := by
  have h : YSet.newSized 10 30 = some YSet.new := by decide +kernel
  exact setNewSized_spec hU h

theorem setRun_spec (hU : EqIdent U) {f : Nat} : ∀ (ops : List SOp) {s s' : YSet}, SInv U s → (∀ op ∈ ops, U op.elem) →
    s.run f ops = some s' → SInv U s' ∧ (∀ m, SAbs U s m → SAbs U s' (memFrom m ops)) ∧
    (∀ m, SAbs U s m → s.count = s.elems.length → s.elems.length + ops.length < 2 ^ 64 → removesMember m ops →
      s'.count = s'.elems.length) := by
  intro ops
  induction ops with
  | nil =>
    intro s s' h _ hr
    simp only [YSet.run, List.foldlM_nil, Option.pure_def, Option.some.injEq] at hr
    subst hr; exact ⟨h, fun m hm => hm, fun m _ hc _ _ => hc⟩
  | cons op ops ih =>
    intro s s' h hops hr
    simp only [YSet.run, List.foldlM_cons, Option.bind_eq_bind, Option.bind_eq_some_iff] at hr
    obtain ⟨s1, h1, h2⟩ := hr
    have hop := hops op (by simp)
    have hrest : ∀ o ∈ ops, U o.elem := fun o ho => hops o (by simp [ho])
    cases op with
    | add x =>
      obtain ⟨i1, a1, c1⟩ := setInsert_sIns hU f s s1 x h hop h1
      obtain ⟨i2, a2, c2⟩ := ih i1 hrest h2
      refine ⟨i2, fun m hm => a2 _ (a1 m hm), fun m hm hc hb hrm => ?_⟩
      rw [List.length_cons] at hb
      obtain ⟨d1, d2⟩ := c1 hc (by omega)
      exact c2 _ (a1 m hm) d1 (by omega) hrm
    | rm x =>
      obtain ⟨i1, a1, c1⟩ := setRm_spec hU h hop h1
      obtain ⟨i2, a2, c2⟩ := ih i1 hrest h2
      refine ⟨i2, fun m hm => a2 _ (a1 m hm), fun m hm hc hb hrm => ?_⟩
      rw [List.length_cons] at hb
      obtain ⟨d1, d2⟩ := c1 hc (by omega) ((hm x).2 hrm.1).2
      exact c2 _ (a1 m hm) d1 (by omega) hrm.2

end Yasl
