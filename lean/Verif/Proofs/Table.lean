import Verif.Spec.Table
import Verif.Proofs.Probe
import Verif.Proofs.Prime
import Verif.Props.Prime
/-! Refinement of tables to finite maps: helper lemmas. -/
namespace Yasl

/-! ## keys -/

theorem GoodKey.gok : GOK GoodKey := ⟨id, id⟩

theorem GoodKey.hashable {k : Val} (h : GoodKey k) : k.hashable = true := by
  cases k <;> simp_all [GoodKey, Val.hashable]

theorem fmag_lt (b : BitVec 64) (h : 0 < fexp b) : 2 ^ 52 * 2 ^ (fexp b - 1) ≤ fmag b ∧ fmag b < 2 ^ 53 * 2 ^ (fexp b - 1) := by
  have hm : fman b < 2 ^ 52 := Nat.mod_lt _ (by decide)
  have hne : fexp b ≠ 0 := by omega
  simp only [fmag, hne, if_false]
  constructor
  · exact Nat.mul_le_mul_right _ (by omega)
  · exact Nat.mul_lt_mul_of_pos_right (by omega) (by positivity)

theorem fmag_exp_lt {a b : BitVec 64} (h : fexp a < fexp b) : fmag a < fmag b := by
  obtain ⟨hb1, -⟩ := fmag_lt b (by omega)
  by_cases ha : fexp a = 0
  · have hm : fman a < 2 ^ 52 := Nat.mod_lt _ (by decide)
    simp only [fmag, ha, if_true] at *
    have : 1 ≤ 2 ^ (fexp b - 1) := Nat.one_le_two_pow
    calc fman a < 2 ^ 52 * 1 := by omega
      _ ≤ 2 ^ 52 * 2 ^ (fexp b - 1) := Nat.mul_le_mul_left _ this
      _ ≤ _ := hb1
  · obtain ⟨-, ha2⟩ := fmag_lt a (by omega)
    calc fmag a < 2 ^ 53 * 2 ^ (fexp a - 1) := ha2
      _ = 2 ^ 52 * 2 ^ (fexp a - 1 + 1) := by rw [pow_succ]; ring
      _ ≤ 2 ^ 52 * 2 ^ (fexp b - 1) := Nat.mul_le_mul_left _ (Nat.pow_le_pow_right (by decide) (by omega))
      _ ≤ _ := hb1

theorem fmag_inj {a b : BitVec 64} (h : fmag a = fmag b) : fexp a = fexp b ∧ fman a = fman b := by
  have he : fexp a = fexp b := by
    rcases Nat.lt_trichotomy (fexp a) (fexp b) with hlt | he | hgt
    · have := fmag_exp_lt hlt; omega
    · exact he
    · have := fmag_exp_lt hgt; omega
  refine ⟨he, ?_⟩
  simp only [fmag, he] at h
  split at h
  · exact h
  · have := Nat.eq_of_mul_eq_mul_right (by positivity) h
    omega

theorem bits_eq {a b : BitVec 64} (he : fexp a = fexp b) (hm : fman a = fman b) (hs : fneg a = fneg b) : a = b := by
  apply BitVec.eq_of_toNat_eq
  have h1 := a.isLt; have h2 := b.isLt
  simp only [fexp, fman, fneg] at he hm hs
  have hs' : a.toNat / 2 ^ 63 = b.toNat / 2 ^ 63 := by
    rw [Bool.eq_iff_iff] at hs
    simp only [beq_iff_eq] at hs
    omega
  omega

/-- non-NaN floats other than −0.0 are equal only if identical -/
theorem feq_eq {a b : BitVec 64} (ha : a ≠ 0x8000000000000000#64) (hb : b ≠ 0x8000000000000000#64)
    (h : feq a b = true) : a = b := by
  rw [feq_iff] at h
  obtain ⟨-, -, h⟩ := h
  have hmag : fmag a = fmag b := by
    simp only [fval] at h
    split at h <;> split at h <;> omega
  obtain ⟨he, hm⟩ := fmag_inj hmag
  by_cases hs : fneg a = fneg b
  · exact bits_eq he hm hs
  · have h0 : fmag a = 0 ∧ fmag b = 0 := by
      simp only [fval] at h
      cases ha' : fneg a <;> cases hb' : fneg b <;> simp_all <;> omega
    exfalso
    have hz : ∀ x : BitVec 64, fmag x = 0 → x = 0#64 ∨ x = 0x8000000000000000#64 := by
      intro x hx
      have hexp : fexp x = 0 := by
        by_contra hc
        have := (fmag_lt x (by omega)).1
        have : 0 < 2 ^ 52 * 2 ^ (fexp x - 1) := by positivity
        omega
      have hman : fman x = 0 := by simpa [fmag, hexp] using hx
      have h1 := x.isLt
      simp only [fexp, fman] at hexp hman
      have : x.toNat = 0 ∨ x.toNat = 2 ^ 63 := by omega
      rcases this with h | h
      · left; exact BitVec.eq_of_toNat_eq h
      · right; exact BitVec.eq_of_toNat_eq h
    have e1 := (hz a h0.1).resolve_right ha
    have e2 := (hz b h0.2).resolve_right hb
    exact hs (by rw [e1, e2])

theorem isEqualTyped_good {a k : Val} (hk : GoodKey k) (ha : a = .undef ∨ a = .end_ ∨ GoodKey a) :
    isEqualTyped a k = true ↔ a = k := by
  constructor
  · intro h
    rcases ha with rfl | rfl | ha
    · cases k <;> simp_all [isEqualTyped, Val.tag, GoodKey]
    · cases k <;> simp_all [isEqualTyped, Val.tag, GoodKey]
    · cases a <;> simp only [GoodKey] at ha <;> cases k <;> simp only [GoodKey] at hk <;>
        simp [isEqualTyped, Val.tag, isEqual, strCmp_eq_zero, Val.isNum, Val.getNum] at h <;> try (rw [h])
      · rw [feq_eq ha.2 hk.2 h]
  · rintro rfl
    cases a <;> simp_all [GoodKey, isEqualTyped, isEqual, strCmp_eq_zero, Val.isNum, Val.getNum, feq]

/-! ## the invariant -/

/-- The keys of the slots. -/
def Table.ks (t : Table) : List Val := t.items.map Item.key

structure TInv (t : Table) : Prop where
  len : t.items.length = t.size
  pos : 0 < t.size
  kinv : KInv GoodKey t.ks
  pair : ∀ it ∈ t.items, it = emptyItem ∨ it = tombstone ∨ (GoodKey it.key ∧ LiveVal it.value)

/-- the table represents the map `m` -/
def Abs (t : Table) (m : Val → Option Val) : Prop := ∀ k v, (GoodKey k ∧ ⟨k, v⟩ ∈ t.items) ↔ m k = some v

theorem ks_length (t : Table) : t.ks.length = t.items.length := by simp [Table.ks]

theorem ks_get (t : Table) (i : Nat) : t.ks[i]? = (t.items[i]?).map Item.key := by simp [Table.ks]

theorem TInv.slot {t : Table} (h : TInv t) (k : Val) (j : Nat) : ∃ it, t.items[getHash k t.size j]? = some it := by
  have := C06_probe_in_bounds k t.size j h.pos
  exact ⟨_, List.getElem?_eq_getElem (by rw [h.len]; exact this)⟩

/-- In a table satisfying the invariant the tests of the loops decide what they should. -/
theorem TInv.tests {t : Table} (h : TInv t) {k : Val} (hk : GoodKey k) {it : Item} (hi : it ∈ t.items) :
    (it.value.tag = .undef ↔ it.key = .undef) ∧ (it.key.tag = .undef ↔ it.key = .undef) ∧
    (isEqualTyped it.key k = true ↔ it.key = k) ∧ ((it.key.tag ≠ .end_ ∧ isEqualTyped it.key k = true) ↔ it.key = k) := by
  have hkv : it.key = .undef ∨ it.key = .end_ ∨ GoodKey it.key := by
    rcases h.pair it hi with rfl | rfl | ⟨hg, -⟩
    · exact .inl rfl
    · exact .inr (.inl rfl)
    · exact .inr (.inr hg)
  have heq := isEqualTyped_good hk hkv
  have hundef : it.key.tag = .undef ↔ it.key = .undef := by cases it.key <;> simp [Val.tag]
  refine ⟨?_, hundef, heq, ?_⟩
  · rcases h.pair it hi with rfl | rfl | ⟨hg, hv⟩
    · simp [emptyItem, Val.tag]
    · simp [tombstone, Val.tag]
    · constructor
      · intro hc; exfalso; apply hv.1; revert hc; cases it.value <;> simp [Val.tag]
      · intro hc; rw [hc] at hg; exact absurd hg (by simp [GoodKey])
  · rw [heq]
    constructor
    · exact fun h => h.2
    · intro h'; refine ⟨?_, h'⟩
      rw [h']; revert hk; cases k <;> simp [GoodKey, Val.tag]

/-! ## the loops -/

theorem getIndexLoop_spec {t : Table} (h : TInv t) {k : Val} (hk : GoodKey k) {f j idx : Nat}
    (hr : getIndexLoop t k f (getHash k t.size j) (j + 1) = some idx) :
    ∃ j', j ≤ j' ∧ getHash k t.size j' = idx ∧
      (∀ m, j ≤ m → m < j' → t.ks[getHash k t.size m]? ≠ some .undef ∧ t.ks[getHash k t.size m]? ≠ some k) ∧
      (t.ks[idx]? = some .undef ∨ t.ks[idx]? = some k) := by
  induction f generalizing j with
  | zero => simp [getIndexLoop] at hr
  | succ f ih =>
    obtain ⟨it, hit⟩ := h.slot k j
    have hmem := List.mem_of_getElem? hit
    obtain ⟨h1, -, -, h4⟩ := h.tests hk hmem
    simp only [getIndexLoop, hit, h1, h4] at hr
    have hks : t.ks[getHash k t.size j]? = some it.key := by rw [ks_get, hit]; rfl
    split at hr
    · rename_i hu
      injection hr with hr; subst hr
      exact ⟨j, le_refl _, rfl, fun m a b => by omega, .inl (by rw [hks, hu])⟩
    · rename_i hu
      split at hr
      · rename_i he
        injection hr with hr; subst hr
        exact ⟨j, le_refl _, rfl, fun m a b => by omega, .inr (by rw [hks, he])⟩
      · rename_i he
        obtain ⟨j', hj, hp, hpre, hend⟩ := ih hr
        refine ⟨j', by omega, hp, ?_, hend⟩
        intro m hm hm'
        rcases Nat.eq_or_lt_of_le hm with rfl | hlt
        · rw [hks]; simp [hu, he]
        · exact hpre m hlt hm'

theorem getIndexLoop_total {t : Table} (h : TInv t) {k : Val} (hk : GoodKey k) {f j j' : Nat} (hj : j ≤ j')
    (hf : j' - j < f) (hend : t.ks[getHash k t.size j']? = some .undef ∨ t.ks[getHash k t.size j']? = some k) :
    ∃ idx, getIndexLoop t k f (getHash k t.size j) (j + 1) = some idx := by
  induction f generalizing j with
  | zero => omega
  | succ f ih =>
    obtain ⟨it, hit⟩ := h.slot k j
    have hmem := List.mem_of_getElem? hit
    obtain ⟨h1, -, -, h4⟩ := h.tests hk hmem
    have hks : t.ks[getHash k t.size j]? = some it.key := by rw [ks_get, hit]; rfl
    simp only [getIndexLoop, hit, h1, h4]
    split
    · exact ⟨_, rfl⟩
    · split
      · exact ⟨_, rfl⟩
      · rename_i hu he
        apply ih
        · rcases Nat.eq_or_lt_of_le hj with rfl | hlt
          · rw [hks] at hend
            simp only [Option.some.injEq] at hend
            exact absurd hend (by tauto)
          · exact hlt
        · rcases Nat.eq_or_lt_of_le hj with rfl | hlt
          · rw [hks] at hend
            simp only [Option.some.injEq] at hend
            exact absurd hend (by tauto)
          · omega

theorem searchLoop_spec {t : Table} (h : TInv t) {k : Val} (hk : GoodKey k) {f j : Nat} {r : Val}
    (hr : searchLoop t k f (getHash k t.size j) (j + 1) = some r) :
    ∃ j', j ≤ j' ∧
      (∀ m, j ≤ m → m < j' → t.ks[getHash k t.size m]? ≠ some .undef ∧ t.ks[getHash k t.size m]? ≠ some k) ∧
      ((t.ks[getHash k t.size j']? = some .undef ∧ r = .end_) ∨ (t.items[getHash k t.size j']? = some ⟨k, r⟩)) := by
  induction f generalizing j with
  | zero => simp [searchLoop] at hr
  | succ f ih =>
    obtain ⟨it, hit⟩ := h.slot k j
    have hmem := List.mem_of_getElem? hit
    obtain ⟨-, h2, h3, -⟩ := h.tests hk hmem
    simp only [searchLoop, hit, h2, h3] at hr
    have hks : t.ks[getHash k t.size j]? = some it.key := by rw [ks_get, hit]; rfl
    split at hr
    · rename_i hu
      injection hr with hr; subst hr
      exact ⟨j, le_refl _, fun m a b => by omega, .inl ⟨by rw [hks, hu], rfl⟩⟩
    · rename_i hu
      split at hr
      · rename_i he
        injection hr with hr; subst hr
        exact ⟨j, le_refl _, fun m a b => by omega, .inr (by rw [hit, ← he])⟩
      · rename_i he
        obtain ⟨j', hj, hpre, hend⟩ := ih hr
        refine ⟨j', by omega, ?_, hend⟩
        intro m hm hm'
        rcases Nat.eq_or_lt_of_le hm with rfl | hlt
        · rw [hks]; simp [hu, he]
        · exact hpre m hlt hm'

theorem searchLoop_total {t : Table} (h : TInv t) {k : Val} (hk : GoodKey k) {f j j' : Nat} (hj : j ≤ j')
    (hf : j' - j < f) (hend : t.ks[getHash k t.size j']? = some .undef ∨ t.ks[getHash k t.size j']? = some k) :
    ∃ r, searchLoop t k f (getHash k t.size j) (j + 1) = some r := by
  induction f generalizing j with
  | zero => omega
  | succ f ih =>
    obtain ⟨it, hit⟩ := h.slot k j
    have hmem := List.mem_of_getElem? hit
    obtain ⟨-, h2, h3, -⟩ := h.tests hk hmem
    have hks : t.ks[getHash k t.size j]? = some it.key := by rw [ks_get, hit]; rfl
    simp only [searchLoop, hit, h2, h3]
    split
    · exact ⟨_, rfl⟩
    · split
      · exact ⟨_, rfl⟩
      · rename_i hu he
        have hlt : j < j' := by
          rcases Nat.eq_or_lt_of_le hj with rfl | hlt
          · rw [hks] at hend
            simp only [Option.some.injEq] at hend
            exact absurd hend (by tauto)
          · exact hlt
        exact ih hlt (by omega)

/-- partial correctness of `search` on the represented map -/
theorem search_spec {t : Table} {m : Val → Option Val} (h : TInv t) (ha : Abs t m) {k : Val} (hk : GoodKey k) {f : Nat}
    {r : Val} (hr : t.search f k = some r) : r = (m k).getD .end_ := by
  simp only [Table.search, hk.hashable, if_true] at hr
  obtain ⟨j, -, hpre, hend⟩ := searchLoop_spec h hk hr
  rcases hend with ⟨hu, rfl⟩ | hit
  · have habs := h.kinv.absent hk (j := j)
      (fun m hm => by rw [ks_length, h.len]; exact (hpre m (by omega) hm).2) (by rw [ks_length, h.len]; exact hu) GoodKey.gok
    cases hm : m k with
    | none => rfl
    | some v =>
      obtain ⟨-, hmem⟩ := (ha k v).2 hm
      obtain ⟨i, hi⟩ := List.getElem?_of_mem hmem
      exact absurd (by rw [ks_get, hi]; rfl) (habs i)
  · have := (ha k r).1 ⟨hk, List.mem_of_getElem? hit⟩
    rw [this]; rfl

/-! ## insertion -/

theorem mem_set_iff {α} (l : List α) (i : Nat) (hi : i < l.length) (a b : α) :
    b ∈ l.set i a ↔ b = a ∨ ∃ j, j ≠ i ∧ l[j]? = some b := by
  constructor
  · intro h
    obtain ⟨j, hj⟩ := List.getElem?_of_mem h
    rw [List.getElem?_set] at hj
    split at hj
    · simp [hi] at hj; exact .inl hj.symm
    · rename_i hne; exact .inr ⟨j, fun e => hne e.symm, hj⟩
  · rintro (rfl | ⟨j, hne, hj⟩)
    · exact List.mem_set hi b
    · apply List.mem_of_getElem? (i := j)
      rw [List.getElem?_set]; split
      · rename_i he; exact absurd he.symm hne
      · exact hj

/-- what one insertion (without resize) does -/
theorem insertHere_spec {t t' : Table} (h : TInv t) {k v : Val} (hk : GoodKey k) (hv : LiveVal v) {f : Nat}
    (hr : t.insertHere f k v = some t') :
    TInv t' ∧ (∀ m, Abs t m → Abs t' (fun x => if x = k then some v else m x)) ∧ t'.size = t.size ∧ t'.base = t.base ∧
    ∃ idx, t'.items = t.items.set idx ⟨k, v⟩ ∧ idx < t.items.length ∧
      ((∃ v0, t.items[idx]? = some ⟨k, v0⟩ ∧ t'.count = t.count) ∨
       (t.items[idx]? = some emptyItem ∧ t'.count = (t.count + 1) % 2 ^ 64 ∧ ∀ i : Nat, t.ks[i]? ≠ some k)) := by
  simp only [Table.insertHere, Option.bind_eq_bind, Option.bind_eq_some_iff] at hr
  obtain ⟨idx, hidx, curr, hcurr, hr⟩ := hr
  injection hr with hr
  have hmem := List.mem_of_getElem? hcurr
  have hlt : idx < t.items.length := by
    by_contra hc
    rw [List.getElem?_eq_none (by omega)] at hcurr; simp at hcurr
  obtain ⟨j, -, hpj, hpre, hend⟩ := getIndexLoop_spec h hk hidx
  have hkc : t.ks[idx]? = some curr.key := by rw [ks_get, hcurr]; rfl
  have hitems : t'.items = t.items.set idx ⟨k, v⟩ := by rw [← hr]
  have hks' : t'.ks = t.ks.set idx k := by simp only [Table.ks, hitems, List.map_set]
  have hpairNew : ∀ it ∈ t'.items, it = emptyItem ∨ it = tombstone ∨ (GoodKey it.key ∧ LiveVal it.value) := by
    intro it hit
    rw [hitems, mem_set_iff _ _ hlt] at hit
    rcases hit with rfl | ⟨i, -, hi⟩
    · exact .inr (.inr ⟨hk, hv⟩)
    · exact h.pair it (List.mem_of_getElem? hi)
  have habs_of : ∀ (hother : ∀ i, i ≠ idx → t.ks[i]? ≠ some k) (m), Abs t m →
      (curr.key = k ∨ curr = emptyItem) → Abs t' (fun x => if x = k then some v else m x) := by
    intro hother m hm hcur x y
    rw [hitems, mem_set_iff _ _ hlt]
    dsimp only
    split
    · rename_i hx; subst hx
      simp only [Option.some.injEq]
      constructor
      · rintro ⟨-, he | ⟨i, hne, hi⟩⟩
        · injection he with _ he; exact he.symm
        · exact absurd (by rw [ks_get, hi]; rfl) (hother i hne)
      · rintro rfl; exact ⟨hk, .inl rfl⟩
    · rename_i hx
      rw [← hm x y]
      constructor
      · rintro ⟨hg, he | ⟨i, hne, hi⟩⟩
        · injection he with he _; exact absurd he hx
        · exact ⟨hg, List.mem_of_getElem? hi⟩
      · rintro ⟨hg, hmem⟩
        refine ⟨hg, .inr ?_⟩
        obtain ⟨i, hi⟩ := List.getElem?_of_mem hmem
        refine ⟨i, ?_, hi⟩
        rintro rfl
        rw [hcurr] at hi; injection hi with hi; subst hi
        rcases hcur with hc | hc
        · exact hx hc
        · injection hc with hc _; subst hc; exact GoodKey.gok.nundef hg
  have hkv : curr.key = .undef ∨ curr.key = .end_ ∨ GoodKey curr.key := h.kinv.valid idx _ hkc
  have heq := isEqualTyped_good hk hkv
  by_cases hck : curr.key = k
  · have hother : ∀ i, i ≠ idx → t.ks[i]? ≠ some k := fun i hne hi =>
      hne (h.kinv.uniq i idx k hk hi (by rw [hkc, hck]))
    have hks'' : t'.ks = t.ks := by
      rw [hks']; apply List.ext_getElem?
      intro i; rw [List.getElem?_set]; split
      · rename_i he; subst he; rw [ks_length, hkc]; simp [hlt, hck]
      · rfl
    refine ⟨⟨?_, ?_, ?_, hpairNew⟩, fun m hm => habs_of hother m hm (.inl hck), by rw [← hr], by rw [← hr],
      idx, hitems, hlt, .inl ⟨curr.value, ?_, ?_⟩⟩
    · rw [hitems, List.length_set, h.len, ← hr]
    · rw [← hr]; exact h.pos
    · rw [hks'']; exact h.kinv
    · rw [hcurr, ← hck]
    · rw [← hr]; simp [heq.2 hck]
  · have hcu : curr.key = .undef := by
      rw [hkc] at hend
      simp only [Option.some.injEq] at hend
      tauto
    have hce : curr = emptyItem := by
      rcases h.pair curr hmem with he | he | ⟨hg, -⟩
      · exact he
      · rw [he] at hcu; simp [tombstone] at hcu
      · rw [hcu] at hg; exact absurd hg GoodKey.gok.nundef
    have hl : t.ks.length = t.size := by rw [ks_length, h.len]
    have habs := h.kinv.absent hk (j := j) (fun m hm => by rw [hl]; exact (hpre m (by omega) hm).2)
      (by rw [hl, hpj, hkc, hcu]) GoodKey.gok
    have hkinv : KInv GoodKey t'.ks := by
      rw [hks']
      have := h.kinv.insertNew GoodKey.gok hk (j := j) (fun m hm => by rw [hl]; exact (hpre m (by omega) hm).1)
        (by rw [hl, hpj, hkc, hcu]) habs
      rwa [hl, hpj] at this
    refine ⟨⟨?_, ?_, hkinv, hpairNew⟩, fun m hm => habs_of (fun i _ => habs i) m hm (.inr hce), by rw [← hr], by rw [← hr],
      idx, hitems, hlt, .inr ⟨by rw [hcurr, hce], ?_, habs⟩⟩
    · rw [hitems, List.length_set, h.len, ← hr]
    · rw [← hr]; exact h.pos
    · rw [← hr]
      have : isEqualTyped curr.key k = false := by
        rw [Bool.eq_false_iff]; intro hc; exact hck (heq.1 hc)
      simp [this]

/-! ## fresh tables -/

theorem newSized_spec {f base : Nat} {t : Table} (h : Table.newSized f base = some t) :
    TInv t ∧ Abs t (fun _ => none) ∧ t.base = base ∧ t.count = 0 ∧ t.size.Prime ∧ base ≤ t.size ∧
    t.items = List.replicate t.size emptyItem ∧ (∀ p, p.Prime → base ≤ p → t.size ≤ p) := by
  simp only [Table.newSized, Option.map_eq_some_iff] at h
  obtain ⟨n, hn, rfl⟩ := h
  obtain ⟨hp, hle, hmin⟩ := nextPrimeC_some SqrtOK_sqrt.lower SqrtOK_sqrt.upper hn
  refine ⟨⟨by simp, hp.pos, ?_, ?_⟩, ?_, rfl, rfl, hp, hle, rfl, hmin⟩
  · simp only [Table.ks, List.map_replicate]
    exact KInv.replicate _ GoodKey.gok _
  · intro it hit; exact .inl (List.eq_of_mem_replicate hit)
  · intro k v
    simp only [reduceCtorEq, iff_false, not_and]
    intro hk hmem
    have := List.eq_of_mem_replicate hmem
    injection this with h1 h2; subst h1; exact GoodKey.gok.nundef hk

theorem entries_mem {t : Table} (h : TInv t) (it : Item) :
    it ∈ t.entries ↔ GoodKey it.key ∧ it ∈ t.items := by
  simp only [Table.entries, List.mem_filter, Item.live]
  constructor
  · rintro ⟨hm, hl⟩
    rcases h.pair it hm with rfl | rfl | ⟨hg, -⟩
    · simp [emptyItem, Val.tag] at hl
    · simp [tombstone, Val.tag] at hl
    · exact ⟨hg, hm⟩
  · rintro ⟨hg, hm⟩
    refine ⟨hm, ?_⟩
    rcases h.pair it hm with rfl | rfl | ⟨hg, hv⟩
    · exact absurd hg GoodKey.gok.nundef
    · exact absurd hg GoodKey.gok.nend
    · have h1 : it.key.tag ≠ .end_ := by revert hg; cases it.key <;> simp [GoodKey, Val.tag]
      have h2 : it.value.tag ≠ .undef := by
        intro hc; apply hv.1; revert hc; cases it.value <;> simp [Val.tag]
      simp [h1, h2]

theorem entries_live {t : Table} (h : TInv t) {it : Item} (hi : it ∈ t.entries) : GoodKey it.key ∧ LiveVal it.value := by
  obtain ⟨hg, hm⟩ := (entries_mem h it).1 hi
  rcases h.pair it hm with rfl | rfl | h'
  · exact absurd hg GoodKey.gok.nundef
  · exact absurd hg GoodKey.gok.nend
  · exact h'

/-- keys of the entries are pairwise different -/
theorem entries_nodup {t : Table} (h : TInv t) : (t.entries.map Item.key).Nodup := by
  have key : ∀ (l : List Item) (off : Nat), (∀ i it, l[i]? = some it → t.items[off + i]? = some it) →
      ((l.filter Item.live).map Item.key).Nodup := by
    intro l
    induction l with
    | nil => intros; simp
    | cons a l ih =>
      intro off hl
      have ih' := ih (off + 1) (fun i it hi => by
        have := hl (i + 1) it (by simpa using hi)
        rwa [show off + 1 + i = off + (i + 1) by omega])
      rw [List.filter_cons]
      split
      · rename_i hlive
        rw [List.map_cons, List.nodup_cons]
        refine ⟨?_, ih'⟩
        intro hc
        rw [List.mem_map] at hc
        obtain ⟨b, hb, hbk⟩ := hc
        rw [List.mem_filter] at hb
        obtain ⟨i, hi⟩ := List.getElem?_of_mem hb.1
        have h1 := hl 0 a rfl
        have h2 := hl (i + 1) b (by simpa using hi)
        have hga : GoodKey a.key := by
          have : a ∈ t.entries := by
            simp only [Table.entries, List.mem_filter]; exact ⟨List.mem_of_getElem? h1, hlive⟩
          exact ((entries_mem h a).1 this).1
        have := h.kinv.uniq (off + 0) (off + (i + 1)) a.key hga (by rw [ks_get, h1]; rfl) (by rw [ks_get, h2, ← hbk]; rfl)
        omega
      · exact ih'
  exact key t.items 0 (fun i it hi => by simpa using hi)

/-! ## maps given by a list of items -/

def updAll (m : Val → Option Val) (l : List Item) : Val → Option Val :=
  l.foldl (fun m it => fun x => if x = it.key then some it.value else m x) m

theorem updAll_nodup {l : List Item} (hl : (l.map Item.key).Nodup) (m : Val → Option Val) (k v : Val) :
    updAll m l k = some v ↔ (⟨k, v⟩ ∈ l) ∨ (m k = some v ∧ k ∉ l.map Item.key) := by
  induction l generalizing m with
  | nil => simp [updAll]
  | cons a l ih =>
    rw [List.map_cons, List.nodup_cons] at hl
    have hu : updAll m (a :: l) = updAll (fun x => if x = a.key then some a.value else m x) l := rfl
    rw [hu, ih hl.2]
    by_cases hk : k = a.key
    · subst hk
      simp only [if_true, Option.some.injEq, hl.1, not_false_eq_true, and_true, List.mem_cons, List.map_cons,
        true_or, not_true_eq_false, and_false, or_false]
      constructor
      · rintro (h | rfl)
        · exact .inr h
        · exact .inl rfl
      · rintro (h | h)
        · exact .inr (congrArg Item.value h).symm
        · exact .inl h
    · simp only [if_neg hk, if_false, List.mem_cons, List.map_cons, hk, false_or]
      constructor
      · rintro (h | h)
        · exact .inl (.inr h)
        · exact .inr h
      · rintro ((h | h) | h)
        · exact absurd (congrArg Item.key h) hk
        · exact .inl h
        · exact .inr h

/-- the entries determine the represented map -/
theorem updAll_entries {t : Table} (h : TInv t) {m : Val → Option Val} (hm : Abs t m) (m0 : Val → Option Val) :
    updAll m0 t.entries = fun x => (m x).or (m0 x) := by
  funext k
  cases hk : updAll m0 t.entries k with
  | none =>
    cases hmk : m k with
    | some v =>
      have : updAll m0 t.entries k = some v := by
        rw [updAll_nodup (entries_nodup h)]
        exact .inl ((entries_mem h _).2 ((hm k v).2 hmk))
      rw [hk] at this; simp at this
    | none =>
      cases h0 : m0 k with
      | none => rfl
      | some v =>
        have : updAll m0 t.entries k = some v := by
          rw [updAll_nodup (entries_nodup h)]
          refine .inr ⟨h0, ?_⟩
          intro hc
          obtain ⟨it, hit, rfl⟩ := List.mem_map.1 hc
          have := (hm it.key it.value).1 ((entries_mem h it).1 hit)
          rw [hmk] at this; simp at this
        rw [hk] at this; simp at this
  | some v =>
    rw [updAll_nodup (entries_nodup h)] at hk
    rcases hk with hk | ⟨h0, hn⟩
    · have := (hm k v).1 ((entries_mem h _).1 hk)
      rw [this]; rfl
    · cases hmk : m k with
      | none => rw [h0]; rfl
      | some w =>
        exfalso; apply hn
        exact List.mem_map.2 ⟨⟨k, w⟩, (entries_mem h _).2 ((hm k w).2 hmk), rfl⟩

/-! ## insertion with resize -/

/-- what an insertion function has to guarantee -/
def InsSpec (ins : Table → Val → Val → Option Table) : Prop :=
  ∀ t t' k v, TInv t → GoodKey k → LiveVal v → ins t k v = some t' →
    TInv t' ∧ ∀ m, Abs t m → Abs t' (fun x => if x = k then some v else m x)

theorem foldlM_ins {ins : Table → Val → Val → Option Table} (hins : InsSpec ins) :
    ∀ (l : List Item) (t t' : Table), TInv t → (∀ it ∈ l, GoodKey it.key ∧ LiveVal it.value) →
      l.foldlM (fun nt it => ins nt it.key it.value) t = some t' →
      TInv t' ∧ ∀ m, Abs t m → Abs t' (updAll m l) := by
  intro l
  induction l with
  | nil =>
    intro t t' h _ hr
    simp only [List.foldlM_nil, Option.pure_def, Option.some.injEq] at hr
    subst hr; exact ⟨h, fun m hm => hm⟩
  | cons a l ih =>
    intro t t' h hl hr
    simp only [List.foldlM_cons, Option.bind_eq_bind, Option.bind_eq_some_iff] at hr
    obtain ⟨t1, h1, h2⟩ := hr
    obtain ⟨hi1, ha1⟩ := hins t t1 a.key a.value h (hl a (by simp)).1 (hl a (by simp)).2 h1
    obtain ⟨hi2, ha2⟩ := ih t1 t' hi1 (fun it hit => hl it (by simp [hit])) h2
    exact ⟨hi2, fun m hm => ha2 _ (ha1 m hm)⟩

theorem resizeWith_spec {ins : Table → Val → Val → Option Table} (hins : InsSpec ins) {f base : Nat} {t t' : Table}
    (h : TInv t) (hr : t.resizeWith ins f base = some t') : TInv t' ∧ ∀ m, Abs t m → Abs t' m := by
  unfold Table.resizeWith at hr
  split at hr
  · injection hr with hr; subst hr; exact ⟨h, fun m hm => hm⟩
  · simp only [Option.bind_eq_bind, Option.bind_eq_some_iff] at hr
    obtain ⟨nt, hnt, hr⟩ := hr
    obtain ⟨hi, ha, -⟩ := newSized_spec hnt
    obtain ⟨hi', ha'⟩ := foldlM_ins hins t.entries nt t' hi (fun it hit => entries_live h hit) hr
    refine ⟨hi', fun m hm => ?_⟩
    have := ha' _ ha
    rw [updAll_entries h hm] at this
    simpa using this

theorem insertFast_insSpec (f : Nat) : InsSpec (Table.insertFast f) := by
  induction f with
  | zero => intro t t' k v _ _ _ hr; simp [Table.insertFast] at hr
  | succ f ih =>
    intro t t' k v h hk hv hr
    simp only [Table.insertFast, Option.bind_eq_bind, Option.bind_eq_some_iff] at hr
    obtain ⟨t1, h1, h2⟩ := hr
    have hres : TInv t1 ∧ ∀ m, Abs t m → Abs t1 m := by
      split at h1
      · exact resizeWith_spec ih h h1
      · injection h1 with h1; subst h1; exact ⟨h, fun m hm => hm⟩
    obtain ⟨hi, ha, -⟩ := insertHere_spec hres.1 hk hv h2
    exact ⟨hi, fun m hm => ha m (hres.2 m hm)⟩

/-! ## removal -/

/-- what the removal loop does to the slots -/
theorem rmLoop_spec {k : Val} (hk : GoodKey k) : ∀ (f : Nat) (items items' : List Item) (j : Nat) (t : Table),
    t.items = items → TInv t → rmLoop k t.size f items (getHash k t.size j) (j + 1) = some items' →
    ∃ j', j ≤ j' ∧ (∀ m, j ≤ m → m < j' → t.ks[getHash k t.size m]? ≠ some .undef) ∧
      t.ks[getHash k t.size j']? = some .undef ∧ TInv { t with items := items' } ∧
      (∀ i : Nat, items'[i]? = items[i]? ∨ ∃ v, items[i]? = some ⟨k, v⟩ ∧ items'[i]? = some tombstone) ∧
      (∀ m, j ≤ m → m < j' → ({ t with items := items' } : Table).ks[getHash k t.size m]? ≠ some k) := by
  intro f
  induction f with
  | zero => intro items items' j t _ _ hr; simp [rmLoop] at hr
  | succ f ih =>
    intro items items' j t ht h hr
    subst ht
    obtain ⟨it, hit⟩ := h.slot k j
    have hmem := List.mem_of_getElem? hit
    obtain ⟨-, h2, -, h4⟩ := h.tests hk hmem
    have hks : t.ks[getHash k t.size j]? = some it.key := by rw [ks_get, hit]; rfl
    have hlt : getHash k t.size j < t.items.length := by rw [h.len]; exact C06_probe_in_bounds _ _ _ h.pos
    simp only [rmLoop, hit, h2, h4] at hr
    split at hr
    · rename_i hu
      injection hr with hr; subst hr
      exact ⟨j, le_refl _, fun m a b => by omega, by rw [hks, hu], h, fun i => .inl rfl, fun m a b => by omega⟩
    · rename_i hu
      split at hr
      · rename_i he
        -- tombstoned here
        let t1 : Table := { t with items := t.items.set (getHash k t.size j) tombstone }
        have hks1 : t1.ks = t.ks.set (getHash k t.size j) .end_ := by
          simp only [t1, Table.ks, List.map_set, tombstone]
        have hT1 : TInv t1 := by
          refine ⟨by simp [t1, h.len], h.pos, ?_, ?_⟩
          · rw [hks1]; exact h.kinv.tomb GoodKey.gok hk (by rw [hks, he])
          · intro x hx
            rw [mem_set_iff _ _ hlt] at hx
            rcases hx with rfl | ⟨i, -, hi⟩
            · exact .inr (.inl rfl)
            · exact h.pair x (List.mem_of_getElem? hi)
        obtain ⟨j', hj', hpre, hend, hT, hpt, hgone⟩ := ih t1.items items' (j + 1) t1 rfl hT1 hr
        have back : ∀ i : Nat, t1.ks[i]? = some .undef ↔ t.ks[i]? = some .undef := by
          intro i; rw [hks1, List.getElem?_set]; split
          · rename_i hi; subst hi; rw [hks]; rw [ks_length]; simp [hlt, hu]
          · rfl
        refine ⟨j', by omega, ?_, ?_, hT, ?_, ?_⟩
        · intro m hm hm'
          rcases Nat.eq_or_lt_of_le hm with rfl | hl
          · rw [hks]; simp [hu]
          · intro hc; exact hpre m hl hm' ((back _).2 hc)
        · exact (back _).1 hend
        · intro i
          by_cases hi : getHash k t.size j = i
          · subst hi
            right
            refine ⟨it.value, by rw [hit, ← he], ?_⟩
            have e1 : t1.items[getHash k t.size j]? = some tombstone := by
              simp only [t1]; rw [List.getElem?_set]; simp [hlt]
            rcases hpt (getHash k t.size j) with hp | ⟨v, hv, hv'⟩
            · rw [hp, e1]
            · exact hv'
          · have e1 : t1.items[i]? = t.items[i]? := by
              simp only [t1]; rw [List.getElem?_set]; simp [hi]
            rw [← e1]; exact hpt i
        · intro m hm hm'
          rcases Nat.eq_or_lt_of_le hm with rfl | hl
          · have e1 : t1.items[getHash k t.size j]? = some tombstone := by
              simp only [t1]; rw [List.getElem?_set]; simp [hlt]
            rw [ks_get]
            have : items'[getHash k t.size j]? = some tombstone := by
              rcases hpt (getHash k t.size j) with hp | ⟨v, hv, hv'⟩
              · rw [hp, e1]
              · exact hv'
            dsimp only
            rw [this]
            simp only [tombstone, Option.map_some, ne_eq, Option.some.injEq]
            rintro rfl; exact GoodKey.gok.nend hk
          · exact hgone m hl hm'
      · rename_i he
        obtain ⟨j', hj', hpre, hend, hT, hpt, hgone⟩ := ih t.items items' (j + 1) t rfl h hr
        refine ⟨j', by omega, ?_, hend, hT, hpt, ?_⟩
        · intro m hm hm'
          rcases Nat.eq_or_lt_of_le hm with rfl | hl
          · rw [hks]; simp [hu]
          · exact hpre m hl hm'
        · intro m hm hm'
          rcases Nat.eq_or_lt_of_le hm with rfl | hl
          · rw [ks_get]
            dsimp only
            rcases hpt (getHash k t.size j) with hp | ⟨v, hv, hv'⟩
            · rw [hp, hit]; simp [he]
            · rw [hv']; simp only [tombstone, Option.map_some, ne_eq, Option.some.injEq]
              rintro rfl; exact GoodKey.gok.nend hk
          · exact hgone m hl hm'

theorem rm_items_spec {t : Table} (h : TInv t) {k : Val} (hk : GoodKey k) {f c : Nat} {items' : List Item}
    (hr : rmLoop k t.size f t.items (getHash k t.size 0) 1 = some items') :
    TInv { t with items := items', count := c } ∧
    (∀ m, Abs t m → Abs { t with items := items', count := c } (fun x => if x = k then none else m x)) ∧
    (∀ i : Nat, items'[i]? = t.items[i]? ∨ ∃ v, t.items[i]? = some ⟨k, v⟩ ∧ items'[i]? = some tombstone) ∧
    (∀ v, ⟨k, v⟩ ∉ items') := by
  obtain ⟨j', -, hpre, hend, hT, hpt, hgone⟩ := rmLoop_spec hk f t.items items' 0 t rfl h hr
  have hT' : TInv { t with items := items', count := c } := ⟨hT.len, hT.pos, hT.kinv, hT.pair⟩
  have hnot : ∀ v, ⟨k, v⟩ ∉ items' := by
    intro v hv
    obtain ⟨i, hi⟩ := List.getElem?_of_mem hv
    -- i was a slot of k before
    have hit : t.items[i]? = some ⟨k, v⟩ := by
      rcases hpt i with hp | ⟨v', -, hv'⟩
      · rw [← hp, hi]
      · rw [hi] at hv'; injection hv' with hv'; injection hv' with hv' _; subst hv'; exact absurd hk GoodKey.gok.nend
    obtain ⟨j, hj, hfirst⟩ := h.kinv.first hk (idx := i) (by rw [ks_get, hit]; rfl)
    rw [ks_length, h.len] at hj hfirst
    have hjj : j < j' := by
      rcases Nat.lt_trichotomy j j' with hl | rfl | hg
      · exact hl
      · rw [hj, ks_get, hit] at hend
        simp only [Option.map_some, Option.some.injEq] at hend
        subst hend; exact absurd hk GoodKey.gok.nundef
      · exact absurd hend (hfirst j' hg).1
    apply hgone j (by omega) hjj
    rw [ks_get, hj]
    dsimp only
    rw [hi]; rfl
  refine ⟨hT', ?_, hpt, hnot⟩
  intro m hm x y
  dsimp only
  split
  · rename_i hx; subst hx
    simp only [reduceCtorEq, iff_false, not_and]
    exact fun _ => hnot y
  · rename_i hx
    rw [← hm x y]
    refine and_congr_right fun hg => ?_
    constructor
    · intro hmem
      obtain ⟨i, hi⟩ := List.getElem?_of_mem hmem
      rcases hpt i with hp | ⟨v', -, hv'⟩
      · exact List.mem_of_getElem? (by rw [← hp, hi])
      · rw [hi] at hv'; injection hv' with hv'; injection hv' with hv' _; subst hv'; exact absurd hg GoodKey.gok.nend
    · intro hmem
      obtain ⟨i, hi⟩ := List.getElem?_of_mem hmem
      rcases hpt i with hp | ⟨v', hv', -⟩
      · exact List.mem_of_getElem? (by rw [hp, hi])
      · rw [hi] at hv'; injection hv' with hv'; injection hv' with hv' _; exact absurd hv' hx

theorem rm_spec {t t' : Table} (h : TInv t) {k : Val} (hk : GoodKey k) {f : Nat} (hr : t.rm f k = some t') :
    TInv t' ∧ ∀ m, Abs t m → Abs t' (fun x => if x = k then none else m x) := by
  simp only [Table.rm, hk.hashable, if_true, Option.bind_eq_bind, Option.bind_eq_some_iff] at hr
  obtain ⟨t1, h1, items', h2, hr⟩ := hr
  injection hr with hr
  have hres : TInv t1 ∧ ∀ m, Abs t m → Abs t1 m := by
    split at h1
    · exact resizeWith_spec (insertFast_insSpec f) h h1
    · injection h1 with h1; subst h1; exact ⟨h, fun m hm => hm⟩
  obtain ⟨hi, ha, -⟩ := rm_items_spec (c := (t1.count + (2 ^ 64 - 1)) % 2 ^ 64) hres.1 hk h2
  rw [← hr]
  exact ⟨hi, fun m hm => ha m (hres.2 m hm)⟩

/-! ## histories -/

theorem new_spec : TInv Table.new ∧ Abs Table.new (fun _ => none) := by
  have h : Table.newSized 10 30 = some Table.new := by decide +kernel
  obtain ⟨h1, h2, -⟩ := newSized_spec h
  exact ⟨h1, h2⟩

theorem step_spec {t t' : Table} (h : TInv t) {op : TOp} (hop : op.OK) {f : Nat} (hr : t.step f op = some t') :
    TInv t' ∧ ∀ m, Abs t m → Abs t' (op.apply m) := by
  cases op with
  | set k v =>
    obtain ⟨hk | hk, hv⟩ := hop
    · simp only [Table.step, Table.insert, hk.hashable, if_true, Option.map_map, Option.map_eq_some_iff] at hr
      obtain ⟨t1, h1, rfl⟩ := hr
      have := insertFast_insSpec f t t1 k v h hk hv h1
      simpa [TOp.apply, hk.hashable] using this
    · simp only [Table.step, Table.insert, hk] at hr
      simp at hr; subst hr
      exact ⟨h, fun m hm => by simpa [TOp.apply, hk] using hm⟩
  | rm k =>
    rcases hop with hk | hk
    · have := rm_spec h hk hr
      simpa [TOp.apply, hk.hashable] using this
    · simp only [Table.step, Table.rm, hk] at hr
      simp at hr; subst hr
      exact ⟨h, fun m hm => by simpa [TOp.apply, hk] using hm⟩

theorem run_spec {f : Nat} : ∀ (ops : List TOp) {t t' : Table}, TInv t → (∀ op ∈ ops, op.OK) →
    t.run f ops = some t' → TInv t' ∧ ∀ m, Abs t m → Abs t' (specFrom m ops) := by
  intro ops
  induction ops with
  | nil =>
    intro t t' h _ hr
    simp only [Table.run, List.foldlM_nil, Option.pure_def, Option.some.injEq] at hr
    subst hr; exact ⟨h, fun m hm => hm⟩
  | cons op ops ih =>
    intro t t' h hops hr
    simp only [Table.run, List.foldlM_cons, Option.bind_eq_bind, Option.bind_eq_some_iff] at hr
    obtain ⟨t1, h1, h2⟩ := hr
    obtain ⟨hi1, ha1⟩ := step_spec h (hops op (by simp)) h1
    obtain ⟨hi2, ha2⟩ := ih hi1 (fun o ho => hops o (by simp [ho])) h2
    exact ⟨hi2, fun m hm => ha2 _ (ha1 m hm)⟩

end Yasl
