import Verif.Proofs.Table
import Mathlib.NumberTheory.Bertrand
/-! Counting and termination of table operations. -/
namespace Yasl

/-! ## counting slots -/

/-- number of tombstones -/
def Table.tombs (t : Table) : Nat := t.items.countP (fun it => decide (it = tombstone))
/-- number of never used slots -/
def Table.unused (t : Table) : Nat := t.items.countP (fun it => decide (it = emptyItem))

theorem entries_length (t : Table) : t.entries.length = t.items.countP Item.live := by
  rw [List.countP_eq_length_filter]; rfl

theorem live_good {it : Item} (h : GoodKey it.key ∧ LiveVal it.value) : it.live = true := by
  obtain ⟨hg, hv⟩ := h
  have h1 : it.key.tag ≠ .end_ := by revert hg; cases it.key <;> simp [GoodKey, Val.tag]
  have h2 : it.value.tag ≠ .undef := by
    intro hc; apply hv.1; revert hc; cases it.value <;> simp [Val.tag]
  simp [Item.live, h1, h2]

theorem live_empty : emptyItem.live = false := by decide
theorem live_tomb : tombstone.live = false := by decide

theorem not_special {it : Item} (h : GoodKey it.key) : it ≠ emptyItem ∧ it ≠ tombstone := by
  constructor <;> (rintro rfl; exact h)

theorem slots_split {t : Table} (h : TInv t) : t.entries.length + t.tombs + t.unused = t.size := by
  rw [entries_length, ← h.len, Table.tombs, Table.unused]
  have key : ∀ l : List Item, (∀ it ∈ l, it = emptyItem ∨ it = tombstone ∨ (GoodKey it.key ∧ LiveVal it.value)) →
      l.countP Item.live + l.countP (fun it => decide (it = tombstone)) + l.countP (fun it => decide (it = emptyItem))
        = l.length := by
    intro l
    induction l with
    | nil => intros; rfl
    | cons a l ih =>
      intro hl
      have ih' := ih (fun it hit => hl it (by simp [hit]))
      simp only [List.countP_cons, List.length_cons]
      rcases hl a (by simp) with rfl | rfl | hg
      · simp only [live_empty, show ¬ (emptyItem = tombstone) by decide, decide_false, decide_true, if_true]
        simp; omega
      · simp only [live_tomb, show ¬ (tombstone = emptyItem) by decide, decide_false, decide_true, if_true]
        simp; omega
      · simp only [live_good hg, (not_special hg.1).1, (not_special hg.1).2, decide_false, if_true]
        simp; omega
  exact key t.items h.pair

theorem unused_slot {t : Table} (h : 0 < t.unused) : ∃ i : Nat, i < t.items.length ∧ t.ks[i]? = some .undef := by
  rw [Table.unused, List.countP_pos_iff] at h
  obtain ⟨it, hm, he⟩ := h
  simp only [decide_eq_true_eq] at he
  obtain ⟨i, hi⟩ := List.getElem?_of_mem hm
  refine ⟨i, ?_, by rw [ks_get, hi, he]; rfl⟩
  by_contra hc
  rw [List.getElem?_eq_none (by omega)] at hi; simp at hi

/-! ## counts under insertion -/

/-- effect of `insertHere` on the counters -/
theorem insertHere_counts {t t' : Table} (h : TInv t) {k v : Val} (hk : GoodKey k) (hv : LiveVal v) {f : Nat}
    (hr : t.insertHere f k v = some t') :
    t'.tombs = t.tombs ∧
    ((t'.count = t.count ∧ t'.entries.length = t.entries.length) ∨
     (t'.count = (t.count + 1) % 2 ^ 64 ∧ t'.entries.length = t.entries.length + 1)) := by
  obtain ⟨-, -, -, -, idx, hit, hlt, hc⟩ := insertHere_spec h hk hv hr
  have hnew : (⟨k, v⟩ : Item).live = true := live_good ⟨hk, hv⟩
  have hnt : (⟨k, v⟩ : Item) ≠ tombstone := (not_special (it := ⟨k, v⟩) hk).2
  rw [entries_length, entries_length, Table.tombs, Table.tombs, hit, List.countP_set hlt, List.countP_set hlt]
  have hget : ∀ x, t.items[idx]? = some x → t.items[idx] = x := by
    intro x hx; rw [List.getElem?_eq_getElem hlt] at hx; injection hx
  rcases hc with ⟨v0, h0, hcnt⟩ | ⟨h0, hcnt, -⟩
  · have hx := hget _ h0
    have hp := h.pair _ (List.mem_of_getElem? h0)
    have hg0 : GoodKey (⟨k, v0⟩ : Item).key ∧ LiveVal (⟨k, v0⟩ : Item).value := by
      rcases hp with he | he | hg
      · exact absurd he (not_special (it := ⟨k, v0⟩) hk).1
      · exact absurd he (not_special (it := ⟨k, v0⟩) hk).2
      · exact hg
    have hl0 := live_good hg0
    have hpos : 0 < t.items.countP Item.live := List.countP_pos_iff.2 ⟨_, List.mem_of_getElem? h0, hl0⟩
    rw [hx]
    simp only [hl0, hnew, hnt, (not_special (it := ⟨k, v0⟩) hk).2, decide_false, if_true, Bool.false_eq_true, if_false]
    refine ⟨by omega, .inl ⟨hcnt, by omega⟩⟩
  · have hx := hget _ h0
    rw [hx]
    simp only [live_empty, hnew, hnt, show ¬ (emptyItem = tombstone) by decide, decide_false, if_true,
      Bool.false_eq_true, if_false]
    exact ⟨by omega, .inr ⟨hcnt, by omega⟩⟩

/-- the size field is right -/
def CntOK (t : Table) : Prop := t.count = t.entries.length

/-- what an insertion function does to the count -/
def InsCnt (ins : Table → Val → Val → Option Table) : Prop :=
  ∀ t t' k v, TInv t → GoodKey k → LiveVal v → CntOK t → t.entries.length + 1 < 2 ^ 64 → ins t k v = some t' →
    CntOK t' ∧ t'.entries.length ≤ t.entries.length + 1

theorem foldlM_cnt {ins : Table → Val → Val → Option Table} (hins : InsSpec ins) (hc : InsCnt ins) :
    ∀ (l : List Item) (t t' : Table), TInv t → CntOK t → (∀ it ∈ l, GoodKey it.key ∧ LiveVal it.value) →
      t.entries.length + l.length < 2 ^ 64 →
      l.foldlM (fun nt it => ins nt it.key it.value) t = some t' →
      CntOK t' ∧ t'.entries.length ≤ t.entries.length + l.length := by
  intro l
  induction l with
  | nil =>
    intro t t' h ht _ _ hr
    simp only [List.foldlM_nil, Option.pure_def, Option.some.injEq] at hr
    subst hr; exact ⟨ht, by simp⟩
  | cons a l ih =>
    intro t t' h ht hl hb hr
    simp only [List.foldlM_cons, Option.bind_eq_bind, Option.bind_eq_some_iff] at hr
    obtain ⟨t1, h1, h2⟩ := hr
    rw [List.length_cons] at hb
    have hga := hl a (by simp)
    obtain ⟨hi1, -⟩ := hins t t1 a.key a.value h hga.1 hga.2 h1
    obtain ⟨hc1, hb1⟩ := hc t t1 a.key a.value h hga.1 hga.2 ht (by omega) h1
    obtain ⟨hc2, hb2⟩ := ih t1 t' hi1 hc1 (fun it hit => hl it (by simp [hit])) (by omega) h2
    exact ⟨hc2, by rw [List.length_cons]; omega⟩

theorem newSized_entries {f base : Nat} {t : Table} (h : Table.newSized f base = some t) : t.entries = [] ∧ CntOK t ∧
    t.tombs = 0 := by
  obtain ⟨-, -, -, hc, -, -, hi, -⟩ := newSized_spec h
  have he : t.entries = [] := by
    rw [Table.entries, hi, List.filter_eq_nil_iff]
    intro x hx
    rw [List.eq_of_mem_replicate hx]; decide
  refine ⟨he, by rw [CntOK, hc, he]; rfl, ?_⟩
  rw [Table.tombs, hi, List.countP_eq_zero]
  intro x hx
  rw [List.eq_of_mem_replicate hx]; decide

theorem resizeWith_cnt {ins : Table → Val → Val → Option Table} (hins : InsSpec ins) (hc : InsCnt ins) {f base : Nat}
    {t t' : Table} (h : TInv t) (ht : CntOK t) (hb : t.entries.length < 2 ^ 64) (hr : t.resizeWith ins f base = some t') :
    CntOK t' ∧ t'.entries.length ≤ t.entries.length := by
  unfold Table.resizeWith at hr
  split at hr
  · injection hr with hr; subst hr; exact ⟨ht, le_refl _⟩
  · simp only [Option.bind_eq_bind, Option.bind_eq_some_iff] at hr
    obtain ⟨nt, hnt, hr⟩ := hr
    obtain ⟨hi, -⟩ := newSized_spec hnt
    obtain ⟨he, hcn, -⟩ := newSized_entries hnt
    have := foldlM_cnt hins hc t.entries nt t' hi hcn (fun it hit => entries_live h hit) (by rw [he]; simpa using hb) hr
    rw [he] at this; simpa using this

theorem insertFast_cnt (f : Nat) : InsCnt (Table.insertFast f) := by
  induction f with
  | zero => intro t t' k v _ _ _ _ _ hr; simp [Table.insertFast] at hr
  | succ f ih =>
    intro t t' k v h hk hv ht hb hr
    simp only [Table.insertFast, Option.bind_eq_some_iff] at hr
    obtain ⟨t1, h1, h2⟩ := hr
    have hres : TInv t1 ∧ CntOK t1 ∧ t1.entries.length ≤ t.entries.length := by
      split at h1
      · exact ⟨(resizeWith_spec (insertFast_insSpec f) h h1).1, resizeWith_cnt (insertFast_insSpec f) ih h ht (by omega) h1⟩
      · injection h1 with h1; subst h1; exact ⟨h, ht, le_refl _⟩
    obtain ⟨hi, hc1, hb1⟩ := hres
    obtain ⟨-, hc | hc⟩ := insertHere_counts hi hk hv h2
    · exact ⟨by rw [CntOK, hc.1, hc.2, hc1], by omega⟩
    · refine ⟨?_, by omega⟩
      rw [CntOK, hc.1, hc.2, hc1, Nat.mod_eq_of_lt (by omega)]

/-! ## counts under removal -/

theorem rm_items_set {t : Table} (h : TInv t) {k : Val} (hk : GoodKey k) {f : Nat} {items' : List Item}
    (hr : rmLoop k t.size f t.items (getHash k t.size 0) 1 = some items') {v : Val} (hv : ⟨k, v⟩ ∈ t.items) :
    ∃ i : Nat, t.items[i]? = some ⟨k, v⟩ ∧ items' = t.items.set i tombstone := by
  obtain ⟨-, -, hpt, hno⟩ := rm_items_spec (c := 0) h hk hr
  obtain ⟨i, hi⟩ := List.getElem?_of_mem hv
  have hlt : i < t.items.length := by
    by_contra hc
    rw [List.getElem?_eq_none (by omega)] at hi; simp at hi
  refine ⟨i, hi, ?_⟩
  apply List.ext_getElem?
  intro j
  rw [List.getElem?_set]
  rcases hpt j with hp | ⟨v', h1, h2⟩
  · rw [hp]
    split
    · rename_i he; subst he
      rw [hi] at hp
      exact absurd (List.mem_of_getElem? hp) (hno v)
    · rfl
  · have hij := h.kinv.uniq i j k hk (by rw [ks_get, hi]; rfl) (by rw [ks_get, h1]; rfl)
    subst hij
    rw [if_pos rfl, h2, if_pos hlt]

/-- removing a present key -/
theorem rm_cnt {t t' : Table} (h : TInv t) {k : Val} (hk : GoodKey k) {f : Nat} {m : Val → Option Val} (ha : Abs t m)
    (hpres : (m k).isSome) (ht : CntOK t) (hb : t.entries.length < 2 ^ 64) (hr : t.rm f k = some t') :
    CntOK t' ∧ t'.entries.length + 1 ≤ t.entries.length := by
  simp only [Table.rm, hk.hashable, if_true, Option.bind_eq_some_iff] at hr
  obtain ⟨t1, h1, items', h2, hr⟩ := hr
  injection hr with hr
  have hres : TInv t1 ∧ Abs t1 m ∧ CntOK t1 ∧ t1.entries.length ≤ t.entries.length := by
    split at h1
    · have hs := resizeWith_spec (insertFast_insSpec f) h h1
      exact ⟨hs.1, hs.2 m ha, resizeWith_cnt (insertFast_insSpec f) (insertFast_cnt f) h ht hb h1⟩
    · injection h1 with h1; subst h1; exact ⟨h, ha, ht, le_refl _⟩
  obtain ⟨hi, ha1, hc1, hb1⟩ := hres
  obtain ⟨v, hv⟩ := Option.isSome_iff_exists.1 hpres
  have hmem := ((ha1 k v).2 hv).2
  obtain ⟨i, hgi, hset⟩ := rm_items_set hi hk h2 hmem
  have hlt : i < t1.items.length := by
    by_contra hc
    rw [List.getElem?_eq_none (by omega)] at hgi; simp at hgi
  have hx : t1.items[i] = ⟨k, v⟩ := by rw [List.getElem?_eq_getElem hlt] at hgi; injection hgi
  have hlive : (⟨k, v⟩ : Item).live = true := by
    have : (⟨k, v⟩ : Item) ∈ t1.entries := (entries_mem hi _).2 ⟨hk, hmem⟩
    exact (List.mem_filter.1 this).2
  have hpos : 0 < t1.items.countP Item.live := List.countP_pos_iff.2 ⟨_, hmem, hlive⟩
  have hlen : t'.entries.length = t1.entries.length - 1 := by
    rw [← hr, entries_length, entries_length]
    dsimp only
    rw [hset, List.countP_set hlt, hx, hlive, live_tomb]
    simp
  have hlen1 : 0 < t1.entries.length := by rw [entries_length]; exact hpos
  refine ⟨?_, by omega⟩
  rw [CntOK, hlen, ← hr]
  dsimp only
  rw [hc1]; omega

theorem run_cnt {f : Nat} : ∀ (ops : List TOp) {t t' : Table} (m : Val → Option Val), TInv t → Abs t m → CntOK t →
    (∀ op ∈ ops, op.OK) → removesPresent m ops → t.entries.length + ops.length < 2 ^ 64 →
    t.run f ops = some t' → CntOK t' ∧ t'.entries.length ≤ t.entries.length + ops.length := by
  intro ops
  induction ops with
  | nil =>
    intro t t' m h _ hc _ _ _ hr
    simp only [Table.run, List.foldlM_nil, Option.pure_def, Option.some.injEq] at hr
    subst hr; exact ⟨hc, by simp⟩
  | cons op ops ih =>
    intro t t' m h ha hc hops hrp hb hr
    simp only [Table.run, List.foldlM_cons, Option.bind_eq_bind, Option.bind_eq_some_iff] at hr
    obtain ⟨t1, h1, h2⟩ := hr
    have hop := hops op (by simp)
    rw [List.length_cons] at hb ⊢
    obtain ⟨hi1, ha1⟩ := step_spec h hop h1
    have hcs : CntOK t1 ∧ t1.entries.length ≤ t.entries.length + 1 := by
      cases op with
      | set k v =>
        obtain ⟨hk | hk, hv⟩ := hop
        · simp only [Table.step, Table.insert, hk.hashable, if_true, Option.map_map, Option.map_eq_some_iff] at h1
          obtain ⟨t2, h3, rfl⟩ := h1
          exact insertFast_cnt f t t2 k v h hk hv hc (by omega) h3
        · simp only [Table.step, Table.insert, hk] at h1
          simp at h1; subst h1; exact ⟨hc, by omega⟩
      | rm k =>
        rcases hop with hk | hk
        · obtain ⟨a, b⟩ := rm_cnt h hk ha (hrp.1 hk.hashable) hc (by omega) h1
          exact ⟨a, by omega⟩
        · simp only [Table.step, Table.rm, hk] at h1
          simp at h1; subst h1; exact ⟨hc, by omega⟩
    have hrp' : removesPresent (op.apply m) ops := by
      cases op with
      | set k v => exact hrp
      | rm k => exact hrp.2
    obtain ⟨a, b⟩ := ih (op.apply m) hi1 (ha1 m ha) hcs.1 (fun o ho => hops o (by simp [ho])) hrp' (by omega) h2
    exact ⟨a, by omega⟩

/-! ## termination -/

/-- Invariant under which operations terminate: at most `R` tombstones, a load factor below 71 % (plus one entry), and a
size that grew only because of at most `N` entries. -/
structure TGood (R N : Nat) (t : Table) : Prop where
  inv : TInv t
  prime : t.size.Prime
  base_le : t.base ≤ t.size
  size_le : t.size ≤ 2 * t.base
  b30 : 30 ≤ t.base
  cnt : CntOK t
  tomb : t.tombs ≤ R
  load : t.count * 100 < 71 * t.size + 100
  small : t.base ≤ 3 * N + 30
  countN : t.count ≤ N

theorem TGood.size32 {R N : Nat} {t : Table} (h : TGood R N t) (hN : N ≤ 2 ^ 29) : t.size ≤ 2 ^ 32 := by
  have := h.size_le; have := h.small; omega

theorem TGood.hasUnused {R N : Nat} {t : Table} (h : TGood R N t) (hR : R ≤ 7) : 0 < t.unused := by
  have h1 := slots_split h.inv
  have h2 := h.load; have h3 := h.tomb; have h4 := h.base_le; have h5 := h.b30
  have h6 : t.count = t.entries.length := h.cnt
  have h7 : t.size ≠ 30 := fun hc => absurd (hc ▸ h.prime) (by decide)
  omega

/-- an unused slot is reached by every probe sequence -/
theorem reach_unused {t : Table} (h : TInv t) (hp : t.size.Prime) (hb : t.size ≤ 2 ^ 32) (hu : 0 < t.unused) (k : Val) :
    ∃ j < t.size, t.ks[getHash k t.size j]? = some .undef := by
  obtain ⟨i, hi, hk⟩ := unused_slot hu
  obtain ⟨j, hj, he⟩ := C06_probe_covers k t.size hp hb i (by rw [← h.len]; exact hi)
  exact ⟨j, hj, by rw [he]; exact hk⟩

theorem insertHere_total {t : Table} (h : TInv t) (hp : t.size.Prime) (hb : t.size ≤ 2 ^ 32) (hu : 0 < t.unused)
    {k : Val} (hk : GoodKey k) (v : Val) {f : Nat} (hf : t.size ≤ f) : ∃ t', t.insertHere f k v = some t' := by
  obtain ⟨j, hj, he⟩ := reach_unused h hp hb hu k
  obtain ⟨idx, hidx⟩ := getIndexLoop_total h hk (f := f) (Nat.zero_le j) (by omega) (.inl he)
  obtain ⟨j', -, hj', -⟩ := getIndexLoop_spec h hk hidx
  obtain ⟨it, hit⟩ := h.slot k j'
  rw [hj'] at hit
  simp only [Table.insertHere, Table.getIndex, Option.bind_eq_bind]
  rw [show (1 : Nat) = 0 + 1 from rfl, hidx]
  simp only [Option.bind_some, hit]
  exact ⟨_, rfl⟩

theorem search_total {t : Table} (h : TInv t) (hp : t.size.Prime) (hb : t.size ≤ 2 ^ 32) (hu : 0 < t.unused)
    {k : Val} (hk : GoodKey k) {f : Nat} (hf : t.size ≤ f) : ∃ r, t.search f k = some r := by
  obtain ⟨j, hj, he⟩ := reach_unused h hp hb hu k
  simp only [Table.search, hk.hashable, if_true]
  exact searchLoop_total h hk (Nat.zero_le j) (by omega) (.inl he)

theorem rmLoop_total {k : Val} {size : Nat} : ∀ (f : Nat) (items : List Item) (j j' : Nat), j ≤ j' → j' - j < f →
    (∀ m, getHash k size m < items.length) →
    (items[getHash k size j']?).map Item.key = some .undef →
    ∃ items', rmLoop k size f items (getHash k size j) (j + 1) = some items' := by
  intro f
  induction f with
  | zero => intros; omega
  | succ f ih =>
    intro items j j' hj hf hlen hend
    have hit : items[getHash k size j]? = some (items[getHash k size j]'(hlen j)) := List.getElem?_eq_getElem (hlen j)
    generalize items[getHash k size j]'(hlen j) = it at hit
    simp only [rmLoop, hit]
    split
    · exact ⟨_, rfl⟩
    · rename_i hu
      have hjj : j ≠ j' := by
        rintro rfl
        rw [hit] at hend; simp only [Option.map_some, Option.some.injEq] at hend
        rw [hend] at hu; exact hu rfl
      split
      · refine ih _ (j + 1) j' (by omega) (by omega) (fun m => by rw [List.length_set]; exact hlen m) ?_
        rw [List.getElem?_set]
        split
        · rename_i he
          rw [← he, hit] at hend; simp only [Option.map_some, Option.some.injEq] at hend
          rw [hend] at hu; exact absurd rfl hu
        · exact hend
      · exact ih _ (j + 1) j' (by omega) (by omega) hlen hend

theorem rmLoop_totalT {t : Table} (h : TInv t) (hp : t.size.Prime) (hb : t.size ≤ 2 ^ 32) (hu : 0 < t.unused)
    (k : Val) {f : Nat} (hf : t.size ≤ f) : ∃ r, rmLoop k t.size f t.items (getHash k t.size 0) 1 = some r := by
  obtain ⟨j, hj, he⟩ := reach_unused h hp hb hu k
  refine rmLoop_total f t.items 0 j (Nat.zero_le j) (by omega) (fun m => ?_) (by rw [← ks_get]; exact he)
  rw [h.len]; exact C06_probe_in_bounds _ _ _ h.pos

/-- insertion without resize keeps the invariant -/
theorem insertHere_good {R N : Nat} {t t' : Table} (h : TGood R N t) {k v : Val} (hk : GoodKey k) (hv : LiveVal v) {f : Nat}
    (hl : t.count * 100 < 71 * t.size) (hc : t.count + 1 ≤ N) (hN : N ≤ 2 ^ 29) (hr : t.insertHere f k v = some t') :
    TGood R N t' ∧ t'.size = t.size ∧ t'.base = t.base ∧ t'.count ≤ t.count + 1 ∧ t'.tombs = t.tombs := by
  obtain ⟨hi, -, hs, hbs, -⟩ := insertHere_spec h.inv hk hv hr
  obtain ⟨ht, hcc⟩ := insertHere_counts h.inv hk hv hr
  have hcnt : t.count = t.entries.length := h.cnt
  have h1 : CntOK t' ∧ t'.count ≤ t.count + 1 := by
    rcases hcc with ⟨a, b⟩ | ⟨a, b⟩
    · exact ⟨by rw [CntOK, a, b, hcnt], by omega⟩
    · rw [Nat.mod_eq_of_lt (by omega)] at a
      exact ⟨by rw [CntOK, a, b, hcnt], by omega⟩
  obtain ⟨hc1, hc2⟩ := h1
  refine ⟨⟨hi, hs ▸ h.prime, by rw [hs, hbs]; exact h.base_le, by rw [hs, hbs]; exact h.size_le, by rw [hbs]; exact h.b30,
    hc1, by rw [ht]; exact h.tomb, by rw [hs]; omega, by rw [hbs]; exact h.small, by omega⟩, hs, hbs, hc2, ht⟩

theorem load_small {t : Table} (hs : 0 < t.size) (hc : t.count ≤ 2 ^ 29) : t.load > 70 ↔ 71 * t.size ≤ t.count * 100 := by
  unfold Table.load
  rw [Nat.mod_eq_of_lt (by omega), gt_iff_lt, Nat.lt_iff_add_one_le, Nat.le_div_iff_mul_le hs]

/-- refilling a table that is large enough -/
theorem refill_total {R N C : Nat} (hR : R ≤ 7) (hN : N ≤ 2 ^ 29) (hC : C ≤ N) {f : Nat} (hf : 2 ^ 32 < f) : ∀ (l : List Item) (t : Table),
    TGood R N t → (∀ it ∈ l, GoodKey it.key ∧ LiveVal it.value) → t.count + l.length ≤ C →
    C * 100 < 71 * t.size + 100 →
    ∃ t', l.foldlM (fun nt it => nt.insertFast f it.key it.value) t = some t' ∧ TGood R N t' ∧ t'.size = t.size ∧
      t'.base = t.base ∧ t'.count ≤ C ∧ t'.tombs = t.tombs := by
  intro l
  induction l with
  | nil =>
    intro t h _ hc _
    simp only [List.length_nil] at hc
    exact ⟨t, rfl, h, rfl, rfl, by omega, rfl⟩
  | cons a l ih =>
    intro t h hl hc hC2
    simp only [List.length_cons] at hc
    have hga := hl a (by simp)
    have hlt : t.count * 100 < 71 * t.size := by omega
    have hcn := h.countN
    obtain ⟨g, rfl⟩ : ∃ g, f = g + 1 := ⟨f - 1, by omega⟩
    obtain ⟨t1, h1⟩ := insertHere_total h.inv h.prime (h.size32 hN) (h.hasUnused hR) hga.1 a.value (f := g)
      (by have := h.size32 hN; omega)
    obtain ⟨hg, hs, hbs, hcc, htm⟩ := insertHere_good h hga.1 hga.2 hlt (by omega) hN h1
    obtain ⟨t', h2, hg2, hs2, hb2, hc2, ht2⟩ := ih t1 hg (fun it hit => hl it (by simp [hit])) (by omega) (by rw [hs]; exact hC2)
    refine ⟨t', ?_, hg2, by rw [hs2, hs], by rw [hb2, hbs], hc2, by rw [ht2, htm]⟩
    simp only [List.foldlM_cons, Option.bind_eq_bind]
    have : t.insertFast (g + 1) a.key a.value = some t1 := by
      simp only [Table.insertFast]
      rw [if_neg (by rw [load_small h.inv.pos (by omega)]; omega)]
      exact h1
    rw [this]
    exact h2

/-- making a new table -/
theorem newSized_good {N base : Nat} (hb : 30 ≤ base) (hbN : base ≤ 3 * N + 30) (hN : N ≤ 2 ^ 29) {f : Nat} (hf : 2 ^ 32 < f) :
    ∃ t, Table.newSized f base = some t ∧ TGood 0 N t ∧ t.base = base ∧ t.count = 0 ∧ base ≤ t.size ∧ t.entries = [] := by
  obtain ⟨p, hp, h1, h2⟩ := Nat.exists_prime_lt_and_le_two_mul base (by omega)
  have hs := nextPrimeC_isSome SqrtOK_sqrt.lower SqrtOK_sqrt.upper hp (Nat.le_of_lt h1) (f := f) (by omega)
  obtain ⟨n, hn⟩ := Option.isSome_iff_exists.1 hs
  obtain ⟨t, ht⟩ : ∃ t, Table.newSized f base = some t := ⟨_, by rw [Table.newSized, hn]; rfl⟩
  obtain ⟨a, -, c, d, e, g, -, i⟩ := newSized_spec ht
  obtain ⟨he, hc, htm⟩ := newSized_entries ht
  exact ⟨t, ht, ⟨a, e, by rw [c]; exact g, by rw [c]; exact le_trans (i p hp (Nat.le_of_lt h1)) h2, by rw [c]; exact hb, hc, by omega,
    by omega, by rw [c]; exact hbN, by omega⟩, c, d, g, he⟩

/-- resizing upwards or downwards -/
theorem resize_good {R N base : Nat} (hR : R ≤ 7) (hN : N ≤ 2 ^ 29) {t : Table} (h : TGood R N t) (hb : 30 ≤ base)
    (hbN : base ≤ 3 * N + 30) (hfit : t.count * 100 < 71 * base + 100) {f : Nat} (hf : 2 ^ 32 < f) :
    ∃ t', t.resizeWith (Table.insertFast f) f base = some t' ∧ TGood 0 N t' ∧ t'.base = base ∧ t'.count ≤ t.count := by
  obtain ⟨nt, hnt, hg, hbs, hc0, hsz, he⟩ := newSized_good hb hbN hN hf
  have hcnt : t.count = t.entries.length := h.cnt
  obtain ⟨t', hr, hg', hs', hb', hc', ht'⟩ := refill_total (R := 0) (N := N) (C := t.count) (by omega) hN h.countN hf t.entries nt
    hg (fun it hit => entries_live h.inv hit) (by omega) (by omega)
  refine ⟨t', ?_, hg', by rw [hb', hbs], hc'⟩
  unfold Table.resizeWith
  rw [if_neg (by unfold TABLE_BASESIZE; omega), hnt]
  exact hr

theorem insertFast_good {R N : Nat} (hR : R ≤ 7) (hN : N ≤ 2 ^ 29) {t : Table} (h : TGood R N t) {k v : Val} (hk : GoodKey k)
    (hv : LiveVal v) (hc : t.count + 1 ≤ N) {f : Nat} (hf : 2 ^ 32 + 1 < f) :
    ∃ t', t.insertFast f k v = some t' ∧ TGood R N t' ∧ t'.count ≤ t.count + 1 := by
  obtain ⟨g, rfl⟩ : ∃ g, f = g + 1 := ⟨f - 1, by omega⟩
  have hload := load_small h.inv.pos (t := t) (by omega)
  by_cases hl : t.load > 70
  · rw [hload] at hl
    have h1 := h.base_le; have h2 := h.size_le; have h3 := h.load; have h4 := h.small; have h5 := h.b30
    obtain ⟨t1, hr, hg, hb1, hc1⟩ := resize_good hR hN h (base := t.base * 2) (by omega) (by omega) (by omega) (f := g) (by omega)
    -- the new size is larger by at least two
    have hs1 : t.size + 2 ≤ t1.size := by
      have p1 := h.prime; have p2 := hg.prime
      have q1 : t.size ≠ 2 * t.base := fun hc => by
        rw [hc] at p1
        exact absurd p1 (Nat.not_prime_mul (by omega) (by omega))
      have q2 : t1.size ≠ 2 * t.base := fun hc => by
        rw [hc] at p2
        exact absurd p2 (Nat.not_prime_mul (by omega) (by omega))
      have := hg.base_le
      omega
    have hlt : t1.count * 100 < 71 * t1.size := by omega
    have hg' : TGood R N t1 := { hg with tomb := by have := hg.tomb; omega }
    obtain ⟨t2, h2⟩ := insertHere_total hg.inv hg.prime (hg.size32 hN) (hg.hasUnused (by omega)) hk v (f := g)
      (by have := hg.size32 hN; omega)
    obtain ⟨hg2, -, -, hcc, -⟩ := insertHere_good hg' hk hv hlt (by omega) hN h2
    refine ⟨t2, ?_, hg2, by omega⟩
    simp only [Table.insertFast]
    rw [if_pos (hload.2 hl), hr]
    exact h2
  · obtain ⟨t2, h2⟩ := insertHere_total h.inv h.prime (h.size32 hN) (h.hasUnused hR) hk v (f := g)
      (by have := h.size32 hN; omega)
    obtain ⟨hg2, -, -, hcc, -⟩ := insertHere_good h hk hv (by rw [hload] at hl; omega) (by omega) hN h2
    refine ⟨t2, ?_, hg2, by omega⟩
    simp only [Table.insertFast]
    rw [if_neg hl]
    exact h2

/-- removal of a present key -/
theorem rm_good {R N : Nat} (hR : R + 1 ≤ 7) (hN : N ≤ 2 ^ 29) {t : Table} (h : TGood R N t) {k : Val} (hk : GoodKey k)
    {m : Val → Option Val} (ha : Abs t m) (hp : (m k).isSome) {f : Nat} (hf : 2 ^ 32 + 1 < f) :
    ∃ t', t.rm f k = some t' ∧ TGood (R + 1) N t' ∧ t'.count ≤ t.count := by
  have hres : ∃ t1, (if t.load < 10 then t.resizeWith (Table.insertFast f) f (t.base / 2) else some t) = some t1 ∧
      TGood R N t1 ∧ t1.count ≤ t.count ∧ Abs t1 m := by
    split
    · rename_i hl
      by_cases hb : t.base / 2 < 30
      · refine ⟨t, ?_, h, le_refl _, ha⟩
        rw [Table.resizeWith, if_pos (by unfold TABLE_BASESIZE; exact hb)]
      · have hcn := h.countN; have h2 := h.size_le; have h4 := h.small; have h0 := h.inv.pos
        have hlt : t.count * 100 < 10 * t.size := by
          rw [Table.load, Nat.mod_eq_of_lt (by omega), Nat.div_lt_iff_lt_mul h0] at hl
          exact hl
        obtain ⟨t1, hr, hg, hb1, hc1⟩ := resize_good (by omega) hN h (base := t.base / 2) (by omega) (by omega) (by omega)
          (f := f) (by omega)
        exact ⟨t1, hr, { hg with tomb := by have := hg.tomb; omega }, hc1,
          (resizeWith_spec (insertFast_insSpec f) h.inv hr).2 m ha⟩
    · exact ⟨t, rfl, h, le_refl _, ha⟩
  obtain ⟨t1, h1, hg, hc, ha1⟩ := hres
  obtain ⟨items', h2⟩ := rmLoop_totalT hg.inv hg.prime (hg.size32 hN) (hg.hasUnused (by omega)) k (f := f)
    (by have := hg.size32 hN; omega)
  obtain ⟨v, hv⟩ := Option.isSome_iff_exists.1 hp
  have hmem := ((ha1 k v).2 hv).2
  obtain ⟨i, hgi, hset⟩ := rm_items_set hg.inv hk h2 hmem
  have hlt : i < t1.items.length := by
    by_contra hc
    rw [List.getElem?_eq_none (by omega)] at hgi; simp at hgi
  have hx : t1.items[i] = ⟨k, v⟩ := by rw [List.getElem?_eq_getElem hlt] at hgi; injection hgi
  have hlive : (⟨k, v⟩ : Item).live = true := by
    have : (⟨k, v⟩ : Item) ∈ t1.entries := (entries_mem hg.inv _).2 ⟨hk, hmem⟩
    exact (List.mem_filter.1 this).2
  have hpos : 0 < t1.items.countP Item.live := List.countP_pos_iff.2 ⟨_, hmem, hlive⟩
  have hcnt1 : t1.count = t1.items.countP Item.live := by rw [← entries_length]; exact hg.cnt
  have hcN := hg.countN
  refine ⟨{ t1 with items := items', count := (t1.count + (2 ^ 64 - 1)) % 2 ^ 64 }, ?_, ?_, ?_⟩
  · simp only [Table.rm, hk.hashable, if_true]
    rw [h1]
    simp only [Option.bind_some]
    rw [h2]; rfl
  · have hmod : (t1.count + (2 ^ 64 - 1)) % 2 ^ 64 = t1.count - 1 := by omega
    obtain ⟨hi, -⟩ := rm_items_spec (c := (t1.count + (2 ^ 64 - 1)) % 2 ^ 64) hg.inv hk h2
    refine ⟨hi, hg.prime, hg.base_le, hg.size_le, hg.b30, ?_, ?_, ?_, hg.small, ?_⟩
    · rw [CntOK, entries_length]
      dsimp only
      rw [hset, List.countP_set hlt, hx, hlive, live_tomb, hmod]
      simp; omega
    · rw [Table.tombs]
      dsimp only
      rw [hset, List.countP_set hlt, hx]
      have := hg.tomb
      rw [Table.tombs] at this
      simp only [(not_special (it := ⟨k, v⟩) hk).2, decide_false, decide_true, if_true, Bool.false_eq_true, if_false]
      omega
    · have := hg.load
      dsimp only
      omega
    · dsimp only; omega
  · dsimp only; omega

theorem run_good {N f : Nat} (hN : N ≤ 2 ^ 29) (hf : 2 ^ 32 + 1 < f) : ∀ (ops : List TOp) {R : Nat} {t : Table}
    (m : Val → Option Val), TGood R N t → Abs t m → (∀ op ∈ ops, op.OK) → removesPresent m ops → R + removals ops ≤ 7 →
    t.count + ops.length ≤ N → ∃ t', t.run f ops = some t' ∧ TGood (R + removals ops) N t' := by
  intro ops
  induction ops with
  | nil =>
    intro R t m h _ _ _ _ _
    exact ⟨t, rfl, h⟩
  | cons op ops ih =>
    intro R t m h ha hops hrp hR hb
    rw [List.length_cons] at hb
    have hop := hops op (by simp)
    have hrest : ∀ o ∈ ops, o.OK := fun o ho => hops o (by simp [ho])
    simp only [Table.run, List.foldlM_cons, Option.bind_eq_bind]
    cases op with
    | set k v =>
      have hrem : removals (.set k v :: ops) = removals ops := by simp [removals]
      rw [hrem] at hR ⊢
      obtain ⟨hk | hk, hv⟩ := hop
      · obtain ⟨t1, h1, hg, hc⟩ := insertFast_good (by omega) hN h hk hv (by omega) hf
        have hst : t.step f (.set k v) = some t1 := by
          simp [Table.step, Table.insert, hk.hashable, h1]
        rw [hst]
        exact ih ((TOp.set k v).apply m) hg ((step_spec h.inv (op := .set k v) ⟨.inl hk, hv⟩ hst).2 m ha) hrest hrp hR (by omega)
      · have hst : t.step f (.set k v) = some t := by simp [Table.step, Table.insert, hk]
        rw [hst]
        exact ih ((TOp.set k v).apply m) h ((step_spec h.inv (op := .set k v) ⟨.inr hk, hv⟩ hst).2 m ha) hrest hrp hR (by omega)
    | rm k =>
      have hrem : removals (.rm k :: ops) = removals ops + 1 := by simp [removals]
      rw [hrem] at hR ⊢
      rcases hop with hk | hk
      · obtain ⟨t1, h1, hg, hc⟩ := rm_good (by omega) hN h hk ha (hrp.1 hk.hashable) hf
        have hst : t.step f (.rm k) = some t1 := h1
        rw [hst]
        have := ih (R := R + 1) ((TOp.rm k).apply m) hg ((step_spec h.inv (op := .rm k) (.inl hk) hst).2 m ha) hrest hrp.2
          (by omega) (by omega)
        rwa [show R + 1 + removals ops = R + (removals ops + 1) by omega] at this
      · have hst : t.step f (.rm k) = some t := by simp [Table.step, Table.rm, hk]
        rw [hst]
        obtain ⟨t', h1, h2⟩ := ih ((TOp.rm k).apply m) h ((step_spec h.inv (op := .rm k) (.inr hk) hst).2 m ha) hrest hrp.2
          (by omega) (by omega)
        exact ⟨t', h1, { h2 with tomb := by have := h2.tomb; omega }⟩

theorem new_good (N : Nat) : TGood 0 N Table.new := by
  refine ⟨new_spec.1, by decide +kernel, by decide, by decide, by decide,
    (by decide +kernel : Table.new.count = Table.new.entries.length), by decide +kernel,
    by decide, by simp [Table.new, TABLE_BASESIZE], by simp [Table.new]⟩

end Yasl
