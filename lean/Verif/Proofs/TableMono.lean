import Verif.Proofs.Table
/-! More fuel does not change the result of a table operation; used to show that some operations never end. -/
namespace Yasl

theorem getIndexLoop_mono {t : Table} {k : Val} : ∀ {f f' index i r : Nat}, f ≤ f' →
    getIndexLoop t k f index i = some r → getIndexLoop t k f' index i = some r := by
  intro f
  induction f with
  | zero => intro f' index i r _ h; simp [getIndexLoop] at h
  | succ f ih =>
    intro f' index i r hf h
    obtain ⟨g, rfl⟩ : ∃ g, f' = g + 1 := ⟨f' - 1, by omega⟩
    simp only [getIndexLoop] at h ⊢
    split
    · rename_i he; simp [he] at h
    · rename_i it he
      simp only [he] at h
      split at h
      · rename_i h1; rw [if_pos h1]; exact h
      · rename_i h1; rw [if_neg h1]
        split at h
        · rename_i h2; rw [if_pos h2]; exact h
        · rename_i h2; rw [if_neg h2]; exact ih (by omega) h

theorem rmLoop_mono {k : Val} {size : Nat} : ∀ {f f' index i : Nat} {items r : List Item}, f ≤ f' →
    rmLoop k size f items index i = some r → rmLoop k size f' items index i = some r := by
  intro f
  induction f with
  | zero => intro f' index i items r _ h; simp [rmLoop] at h
  | succ f ih =>
    intro f' index i items r hf h
    obtain ⟨g, rfl⟩ : ∃ g, f' = g + 1 := ⟨f' - 1, by omega⟩
    simp only [rmLoop] at h ⊢
    split
    · rename_i he; simp [he] at h
    · rename_i it he
      simp only [he] at h
      split at h
      · rename_i h1; rw [if_pos h1]; exact h
      · rename_i h1; rw [if_neg h1]; exact ih (by omega) h

theorem nextPrimeC_mono {sq : Nat → Nat} : ∀ {f f' x r : Nat}, f ≤ f' → nextPrimeC sq f x = some r →
    nextPrimeC sq f' x = some r := by
  intro f
  induction f with
  | zero => intro f' x r _ h; simp [nextPrimeC] at h
  | succ f ih =>
    intro f' x r hf h
    obtain ⟨g, rfl⟩ : ∃ g, f' = g + 1 := ⟨f' - 1, by omega⟩
    simp only [nextPrimeC] at h ⊢
    split at h
    · rename_i h1; rw [if_pos h1]; exact h
    · rename_i h1; rw [if_neg h1]; exact ih (by omega) h

theorem newSized_mono {f f' b : Nat} {t : Table} (hf : f ≤ f') (h : Table.newSized f b = some t) :
    Table.newSized f' b = some t := by
  simp only [Table.newSized, Option.map_eq_some_iff] at h ⊢
  obtain ⟨n, hn, rfl⟩ := h
  exact ⟨n, nextPrimeC_mono hf hn, rfl⟩

theorem insertHere_mono {f f' : Nat} {t t' : Table} {k v : Val} (hf : f ≤ f') (h : t.insertHere f k v = some t') :
    t.insertHere f' k v = some t' := by
  simp only [Table.insertHere, Table.getIndex, Option.bind_eq_bind, Option.bind_eq_some_iff] at h ⊢
  obtain ⟨i, hi, h⟩ := h
  exact ⟨i, getIndexLoop_mono hf hi, h⟩

theorem foldlM_mono {α β : Type} {g g' : α → β → Option α} (hg : ∀ a b c, g a b = some c → g' a b = some c) :
    ∀ (l : List β) (a c : α), l.foldlM g a = some c → l.foldlM g' a = some c := by
  intro l
  induction l with
  | nil => intro a c h; exact h
  | cons b l ih =>
    intro a c h
    simp only [List.foldlM_cons, Option.bind_eq_bind, Option.bind_eq_some_iff] at h ⊢
    obtain ⟨a1, h1, h2⟩ := h
    exact ⟨a1, hg _ _ _ h1, ih _ _ h2⟩

theorem resizeWith_mono {ins ins' : Table → Val → Val → Option Table}
    (hi : ∀ t k v t', ins t k v = some t' → ins' t k v = some t') {f f' b : Nat} {t t' : Table} (hf : f ≤ f')
    (h : t.resizeWith ins f b = some t') : t.resizeWith ins' f' b = some t' := by
  unfold Table.resizeWith at h ⊢
  split at h
  · rename_i h1; rw [if_pos h1]; exact h
  · rename_i h1; rw [if_neg h1]
    simp only [Option.bind_eq_bind, Option.bind_eq_some_iff] at h ⊢
    obtain ⟨nt, hn, h⟩ := h
    exact ⟨nt, newSized_mono hf hn, foldlM_mono (fun a b c hc => hi a b.key b.value c hc) _ _ _ h⟩

theorem insertFast_mono : ∀ {f f' : Nat} {t t' : Table} {k v : Val}, f ≤ f' → t.insertFast f k v = some t' →
    t.insertFast f' k v = some t' := by
  intro f
  induction f with
  | zero => intro f' t t' k v _ h; simp [Table.insertFast] at h
  | succ f ih =>
    intro f' t t' k v hf h
    obtain ⟨g, rfl⟩ : ∃ g, f' = g + 1 := ⟨f' - 1, by omega⟩
    simp only [Table.insertFast, Option.bind_eq_some_iff] at h ⊢
    obtain ⟨t1, h1, h2⟩ := h
    refine ⟨t1, ?_, insertHere_mono (by omega) h2⟩
    split at h1
    · rename_i hl; rw [if_pos hl]
      exact resizeWith_mono (fun t k v t' h => ih (by omega) h) (by omega) h1
    · rename_i hl; rw [if_neg hl]; exact h1

theorem rm_mono {f f' : Nat} {t t' : Table} {k : Val} (hf : f ≤ f') (h : t.rm f k = some t') : t.rm f' k = some t' := by
  unfold Table.rm at h ⊢
  split at h
  · rename_i hk; rw [if_pos hk]
    simp only [Option.bind_eq_some_iff] at h ⊢
    obtain ⟨t1, h1, items, h2, h3⟩ := h
    refine ⟨t1, ?_, items, rmLoop_mono hf h2, h3⟩
    split at h1
    · rename_i hl; rw [if_pos hl]
      exact resizeWith_mono (fun t k v t' h => insertFast_mono hf h) hf h1
    · rename_i hl; rw [if_neg hl]; exact h1
  · rename_i hk; rw [if_neg hk]; exact h

theorem step_mono {f f' : Nat} {t t' : Table} {op : TOp} (hf : f ≤ f') (h : t.step f op = some t') :
    t.step f' op = some t' := by
  cases op with
  | set k v =>
    simp only [Table.step, Table.insert] at h ⊢
    split at h
    · rename_i hk; rw [if_pos hk]
      simp only [Option.map_map, Option.map_eq_some_iff] at h ⊢
      obtain ⟨t1, h1, h2⟩ := h
      exact ⟨t1, insertFast_mono hf h1, h2⟩
    · rename_i hk; rw [if_neg hk]; exact h
  | rm k => exact rm_mono hf h

theorem run_mono {f f' : Nat} {t t' : Table} {ops : List TOp} (hf : f ≤ f') (h : t.run f ops = some t') :
    t.run f' ops = some t' := foldlM_mono (fun _ _ _ hc => step_mono hf hc) ops t t' h

/-- two runs that complete agree, whatever their fuel -/
theorem run_det {f f' : Nat} {t t1 t2 : Table} {ops : List TOp} (h1 : t.run f ops = some t1) (h2 : t.run f' ops = some t2) :
    t1 = t2 := by
  rcases Nat.le_total f f' with h | h
  · have := run_mono h h1; rw [this] at h2; injection h2
  · have := run_mono h h2; rw [this] at h1; injection h1 with h1; exact h1.symm

theorem run_append {f : Nat} {t : Table} {a b : List TOp} : t.run f (a ++ b) = (t.run f a).bind (fun t => t.run f b) := by
  simp [Table.run, List.foldlM_append]

/-- a removal loop over slots that are all used never ends -/
theorem rmLoop_full {k : Val} {size : Nat} : ∀ (f : Nat) (items : List Item) (index i : Nat),
    (∀ it ∈ items, it.key.tag ≠ .undef) → rmLoop k size f items index i = none := by
  intro f
  induction f with
  | zero => intros; rfl
  | succ f ih =>
    intro items index i h
    simp only [rmLoop]
    split
    · rfl
    · rename_i it hit
      rw [if_neg (h it (List.mem_of_getElem? hit))]
      apply ih
      intro x hx
      split at hx
      · rcases List.mem_or_eq_of_mem_set hx with hx | rfl
        · exact h x hx
        · decide
      · exact h x hx

/-- a search over slots that are all used, none with the key, never ends -/
theorem searchLoop_full {t : Table} {k : Val} (h : ∀ it ∈ t.items, it.key.tag ≠ .undef ∧ isEqualTyped it.key k = false) :
    ∀ (f index i : Nat), searchLoop t k f index i = none := by
  intro f
  induction f with
  | zero => intros; rfl
  | succ f ih =>
    intro index i
    simp only [searchLoop]
    split
    · rfl
    · rename_i it hit
      have := h it (List.mem_of_getElem? hit)
      rw [if_neg this.1, this.2]
      exact ih _ _

end Yasl
