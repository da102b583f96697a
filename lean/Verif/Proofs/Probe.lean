import Verif.Model.Hash
import Verif.Proofs.Value
import Verif.Props.Hash
/-! Invariants of an open-addressing key array, shared by tables and sets. -/
namespace Yasl

/-- Invariant of an array of keys: `undef` = never used, `end_` = tombstone, otherwise a key satisfying `G`. -/
structure KInv (G : Val → Prop) (ks : List Val) : Prop where
  valid : ∀ (i : Nat) k, ks[i]? = some k → k = .undef ∨ k = .end_ ∨ G k
  reach : ∀ (i : Nat) k, ks[i]? = some k → G k →
    ∃ j, getHash k ks.length j = i ∧ ∀ j' < j, ks[getHash k ks.length j']? ≠ some .undef
  uniq : ∀ (i j : Nat) k, G k → ks[i]? = some k → ks[j]? = some k → i = j

/-- what `G` has to satisfy -/
structure GOK (G : Val → Prop) : Prop where
  nundef : ¬ G .undef
  nend : ¬ G .end_

theorem KInv.replicate (G : Val → Prop) (hG : GOK G) (n : Nat) : KInv G (List.replicate n .undef) := by
  constructor
  · intro i k h
    rw [List.getElem?_replicate] at h
    split at h <;> simp at h
    exact .inl h.symm
  · intro i k h hk
    rw [List.getElem?_replicate] at h
    split at h <;> simp at h
    subst h; exact absurd hk hG.nundef
  · intro i j k hk h
    rw [List.getElem?_replicate] at h
    split at h <;> simp at h
    subst h; exact absurd hk hG.nundef

/-- If probing for `k` sees only used slots not holding `k` and then an unused slot, `k` is not in the array. -/
theorem KInv.absent {G : Val → Prop} {ks : List Val} (h : KInv G ks) {k : Val} (hk : G k) {j : Nat}
    (hpre : ∀ m < j, ks[getHash k ks.length m]? ≠ some k) (hj : ks[getHash k ks.length j]? = some .undef)
    (hG : GOK G) : ∀ i : Nat, ks[i]? ≠ some k := by
  intro i hi
  obtain ⟨j', hj', hne⟩ := h.reach i k hi hk
  rcases Nat.lt_trichotomy j' j with hlt | rfl | hgt
  · exact hpre j' hlt (by rw [hj']; exact hi)
  · rw [hj', hi] at hj; injection hj with hj; subst hj; exact hG.nundef hk
  · exact hne j hgt hj

/-- Storing an absent key at the first unused slot of its probe sequence. -/
theorem KInv.insertNew {G : Val → Prop} {ks : List Val} (h : KInv G ks) (hG : GOK G) {k : Val} (hk : G k) {j : Nat}
    (hpre : ∀ m < j, ks[getHash k ks.length m]? ≠ some .undef)
    (hj : ks[getHash k ks.length j]? = some .undef) (habs : ∀ i : Nat, ks[i]? ≠ some k) :
    KInv G (ks.set (getHash k ks.length j) k) := by
  generalize hidx : getHash k ks.length j = idx at *
  have hlt : idx < ks.length := by
    by_contra hc
    rw [List.getElem?_eq_none (by omega)] at hj; simp at hj
  have get : ∀ i : Nat, (ks.set idx k)[i]? = if idx = i then some k else ks[i]? := by
    intro i; rw [List.getElem?_set]; split
    · rename_i he; subst he; simp [hlt]
    · rfl
  have stay : ∀ i : Nat, ks[i]? ≠ some .undef → (ks.set idx k)[i]? ≠ some .undef := by
    intro i hi; rw [get]; split
    · intro hc; injection hc with hc; subst hc; exact hG.nundef hk
    · exact hi
  constructor
  · intro i k' hi
    rw [get] at hi
    split at hi
    · injection hi with hi; subst hi; exact .inr (.inr hk)
    · exact h.valid i k' hi
  · intro i k' hi hk'
    rw [get] at hi
    rw [List.length_set]
    split at hi
    · rename_i he
      injection hi with hi; subst hi
      exact ⟨j, by rw [hidx, he], fun j' hj' => stay _ (hpre j' hj')⟩
    · obtain ⟨j', hj', hne⟩ := h.reach i k' hi hk'
      exact ⟨j', hj', fun m hm => stay _ (hne m hm)⟩
  · intro a b k' hk' ha hb
    rw [get] at ha hb
    split at ha
    · injection ha with ha; subst ha
      split at hb
      · omega
      · exact absurd hb (habs b)
    · split at hb
      · injection hb with hb; subst hb; exact absurd ha (habs a)
      · exact h.uniq a b k' hk' ha hb

/-- Replacing a key by a tombstone. -/
theorem KInv.tomb {G : Val → Prop} {ks : List Val} (h : KInv G ks) (hG : GOK G) {idx : Nat} {k : Val} (hk : G k)
    (hi : ks[idx]? = some k) : KInv G (ks.set idx .end_) := by
  have hlt : idx < ks.length := by
    by_contra hc
    rw [List.getElem?_eq_none (by omega)] at hi; simp at hi
  have get : ∀ i : Nat, (ks.set idx .end_)[i]? = if idx = i then some .end_ else ks[i]? := by
    intro i; rw [List.getElem?_set]; split
    · rename_i he; subst he; simp [hlt]
    · rfl
  constructor
  · intro i k' hi
    rw [get] at hi
    split at hi
    · injection hi with hi; exact .inr (.inl hi.symm)
    · exact h.valid i k' hi
  · intro i k' hi hk'
    rw [get] at hi
    rw [List.length_set]
    split at hi
    · injection hi with hi; subst hi; exact absurd hk' hG.nend
    · obtain ⟨j', hj', hne⟩ := h.reach i k' hi hk'
      refine ⟨j', hj', fun m hm => ?_⟩
      rw [get]; split
      · simp
      · exact hne m hm
  · intro a b k' hk' ha hb
    rw [get] at ha hb
    split at ha
    · injection ha with ha; subst ha; exact absurd hk' hG.nend
    · split at hb
      · injection hb with hb; subst hb; exact absurd hk' hG.nend
      · exact h.uniq a b k' hk' ha hb

/-- For a key present at `idx`: the first probe hitting `idx` comes before any unused slot, and no earlier probe holds
the key. -/
theorem KInv.first {G : Val → Prop} {ks : List Val} (h : KInv G ks) {k : Val} (hk : G k) {idx : Nat}
    (hi : ks[idx]? = some k) :
    ∃ j, getHash k ks.length j = idx ∧ ∀ m < j, ks[getHash k ks.length m]? ≠ some .undef ∧
      ks[getHash k ks.length m]? ≠ some k := by
  classical
  obtain ⟨j, hj, hne⟩ := h.reach idx k hi hk
  have hex : ∃ j, getHash k ks.length j = idx := ⟨j, hj⟩
  refine ⟨Nat.find hex, Nat.find_spec hex, fun m hm => ⟨?_, ?_⟩⟩
  · have hmj : m < j := lt_of_lt_of_le hm (Nat.find_le hj)
    exact hne m hmj
  · intro hc
    exact Nat.find_min hex hm (h.uniq _ _ k hk hc hi)

end Yasl
