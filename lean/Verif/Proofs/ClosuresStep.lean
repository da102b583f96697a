import Verif.Proofs.Closures
set_option autoImplicit false
/-! # Closures and reference counts: the operations -/
namespace Yasl

theorem kstep_pushPlain {s : KState} (I : ClInv s) : KSafe (s.step .pushPlain) :=
  kpush_safe I.o (push_safe I.r (t := s.top) (v := none) (by intro _ _ _ _ a ha; cases ha))

theorem kstep_pushNew {s : KState} (I : ClInv s) : KSafe (s.step .pushNew) :=
  kpush_safe (s := { s with mem := s.mem.alloc [] .plain }) (I.o.alloc I.fresh [] (by simp)) (step_pushNew I.r)

theorem kstep_load {s : KState} (I : ClInv s) (i : Nat) : KSafe (s.step (.load i)) := by
  simp only [KState.step]
  have R := step_load I.r i
  simp only [RState.step] at R
  by_cases hi : i < s.top
  · rw [if_pos hi]
    rw [if_pos (show i < s.toR.top from hi)] at R
    rcases e : s.mem.slots[i]? with _ | v
    · exact fun _ => .inl rfl
    · rw [show s.toR.slots[i]? = some v from e] at R
      exact kpush_safe I.o R
  · rw [if_neg hi]; exact fun _ => .inl rfl

theorem kstep_pop {s : KState} (I : ClInv s) : KSafe (s.step .pop) := by
  intro _
  simp only [KState.step, KRes.of]
  split
  · exact .inl rfl
  · refine .inr ⟨_, rfl, ⟨I.r.bal, I.r.len, ?_, I.r.nz⟩, I.o⟩
    show s.top - 1 ≤ 1024
    have : s.top ≤ 1024 := I.r.top
    omega

theorem kstep_store {s : KState} (I : ClInv s) (i : Nat) : KSafe (s.step (.store i)) := by
  have R := step_store I.r i
  simp only [RState.step] at R
  simp only [KState.step]
  by_cases hi : i + 1 < s.top
  · rw [if_pos hi]
    rw [if_pos (show i + 1 < s.toR.top from hi)] at R
    rcases eo : s.mem.slots[i]? with _ | old
    · exact fun _ => .inl rfl
    have hl : s.mem.slots.length = 1024 := I.r.len
    have ht : s.top ≤ 1024 := I.r.top
    obtain ⟨v, ev⟩ : ∃ v, s.mem.slots[s.top - 1]? = some v := ⟨_, List.getElem?_eq_getElem (by omega)⟩
    rw [show s.toR.slots[i]? = some old from eo, show s.toR.slots[s.toR.top - 1]? = some v from ev] at R
    intro h
    dsimp only at h R ⊢
    have h1 := decK_same s.fuel s.mem old (KRes.bind_lost h)
    rw [KRes.bind_res]
    rw [show decRef s.toR.fuel s.toR.heap old = decRef s.fuel s.mem.heap old from rfl] at R
    rcases e : (decK s.fuel s.mem old).res with m | _ | _ | _ <;> rw [e] at h1
    · obtain ⟨b1, b2, b3, b4⟩ := h1
      rw [b1] at R
      show (match m.slots[s.top - 1]? with | some v => _ | none => _ : KRes KState).res = .bad ∨ _
      rw [RcRes.bind, b2, ev]
      rw [show ∀ f : RHeap → RcRes RState, (RcRes.ok m.heap).bind f = f m.heap from fun _ => rfl] at R
      dsimp only [KRes.of]
      rcases e2 : incRef m.heap v with h2 | _ | _ | _ <;> rw [e2] at R
      · rcases R with R | ⟨t, et, It⟩
        · cases R
        · cases et
          refine .inr ⟨_, rfl, ?_, KOpen.stays (m := s.mem) I.o (m' := ⟨h2, s.mem.slots.set i v, m.kind⟩) b3 (b4.trans (incRef_stays _ e2))⟩
          exact It
      · rcases R with R | ⟨t, et, It⟩
        · cases R
        · cases et
      · rcases R with R | ⟨t, et, It⟩
        · cases R
        · cases et
      · exact .inl rfl
    · rw [show decRef s.fuel s.mem.heap old = _ from h1] at R
      rcases R with R | ⟨t, et, It⟩
      · cases R
      · cases et
    · rw [show decRef s.fuel s.mem.heap old = _ from h1] at R
      rcases R with R | ⟨t, et, It⟩
      · cases R
      · cases et
    · exact .inl rfl
  · rw [if_neg hi]; exact fun _ => .inl rfl

theorem kstep_newList {s : KState} (I : ClInv s) (n : Nat) : KSafe (s.step (.newList n)) := by
  have R := step_newList I.r n
  simp only [RState.step] at R
  simp only [KState.step]
  by_cases hn : n < s.top
  · rw [if_pos hn]
    rw [if_pos (show n < s.toR.top from hn)] at R
    intro h
    rw [KRes.bind_res]
    have e0 : rcAll incRef (s.toR.heap.alloc ((s.toR.slots.drop (s.toR.top - n)).take n)) ((s.toR.slots.drop (s.toR.top - n)).take n)
      = rcAll incRef (s.mem.alloc ((s.mem.slots.drop (s.top - n)).take n) .plain).heap ((s.mem.slots.drop (s.top - n)).take n) := rfl
    rw [e0] at R
    show RcRes.bind (rcAll incRef _ _) _ = _ ∨ _
    rcases e : rcAll incRef (s.mem.alloc ((s.mem.slots.drop (s.top - n)).take n) .plain).heap ((s.mem.slots.drop (s.top - n)).take n) with h1 | _ | _ | _ <;>
      rw [e] at R
    · have h' := KRes.bind_lost' h (a := h1) e
      have K := (I.o.alloc I.fresh ((s.mem.slots.drop (s.top - n)).take n) (k := .plain) (by simp)).stays
        (m' := { s.mem.alloc ((s.mem.slots.drop (s.top - n)).take n) .plain with heap := h1 }) rfl (incAll_stays _ _ e)
      exact kpush_safe (s := { s with mem := { s.mem.alloc ((s.mem.slots.drop (s.top - n)).take n) .plain with heap := h1 }, top := s.top - (n + 1) }) K R h'
    · rcases R with R | ⟨t, et, It⟩
      · cases R
      · cases et
    · rcases R with R | ⟨t, et, It⟩
      · cases R
      · cases et
    · exact .inl rfl
  · rw [if_neg hn]; exact fun _ => .inl rfl

theorem kstep_getItem {s : KState} (I : ClInv s) (i j : Nat) : KSafe (s.step (.getItem i j)) := by
  have R := step_getItem I.r i j
  simp only [RState.step] at R
  simp only [KState.step]
  by_cases hi : i < s.top
  · rw [if_pos hi]
    rw [if_pos (show i < s.toR.top from hi)] at R
    rcases eo : s.mem.slots[i]? with _ | _ | a
    · exact fun _ => .inl rfl
    · exact fun _ => .inl rfl
    dsimp only
    obtain ⟨c, ec⟩ := I.r.bal.mem_live (a := a) (List.mem_append_left _ (List.mem_of_getElem? eo))
    have ec : s.mem.heap.cell a = some c := ec
    rw [ec]; dsimp only
    by_cases hk : s.mem.kind a = .plain
    · rw [if_pos hk]
      have ob : s.toR.obj i = some (a, c) := by
        unfold RState.obj
        rw [show s.toR.slots[i]? = some (some a) from eo]
        show Option.map _ (s.mem.heap.cell a) = _
        rw [ec]; rfl
      rw [ob] at R
      rcases ej : c.items[j]? with _ | v
      · exact fun _ => .inl rfl
      · dsimp only at R; rw [ej] at R
        exact kpush_safe I.o R
    · rw [if_neg hk]; exact fun _ => .inl rfl
  · rw [if_neg hi]; exact fun _ => .inl rfl

/-- Giving up a row of slots without loss. -/
def SlotsSame (m : KMem) (start n : Nat) (r : RcRes KMem) (q : RcRes RHeap) : Prop :=
  match r with
  | .ok m' => q = .ok m'.heap ∧ m'.slots.length = m.slots.length ∧ (∀ j, j < start ∨ start + n ≤ j → m'.slots[j]? = m.slots[j]?) ∧ m'.kind = m.kind ∧
      Stays m.kind m.heap m'.heap
  | .uaf => q = .uaf
  | .fuel => q = .fuel
  | .bad => q = .bad ∨ m.slots.length < start + n

theorem slotForget_other {m : KMem} {i j : Nat} {b : Bool} (ne : j ≠ i) : (m.forget i b).slots[j]? = m.slots[j]? := by
  unfold KMem.forget; split
  · exact List.getElem?_set_ne ne.symm
  · rfl

theorem slotForget_length (m : KMem) (i : Nat) (b : Bool) : (m.forget i b).slots.length = m.slots.length := by
  unfold KMem.forget; split
  · exact List.length_set ..
  · rfl

theorem slotForget_heap (m : KMem) (i : Nat) (b : Bool) : (m.forget i b).heap = m.heap := by unfold KMem.forget; split <;> rfl
theorem slotForget_kind (m : KMem) (i : Nat) (b : Bool) : (m.forget i b).kind = m.kind := by unfold KMem.forget; split <;> rfl

theorem decSlots_same (f : Nat) : ∀ (n : Nat) (m : KMem) (start : Nat), (m.decSlots f start n).lost = false →
    SlotsSame m start n (m.decSlots f start n).res (rcAll (decRef f) m.heap ((m.slots.drop start).take n))
  | 0, m, start, _ => by
    rw [List.take_zero]; exact ⟨rfl, rfl, fun _ _ => rfl, rfl, .refl _ _⟩
  | n + 1, m, start, h => by
    unfold KMem.decSlots at h ⊢
    rw [KRes.bind_res]
    rcases es : m.slots[start]? with _ | v
    · have hl : m.slots.length ≤ start := List.getElem?_eq_none_iff.1 es
      have : (m.decSlot f start) = KRes.of .bad := by unfold KMem.decSlot; rw [es]
      rw [this]; right; omega
    · have hl : start < m.slots.length := (List.getElem?_eq_some_iff.1 es).1
      have ed : (m.slots.drop start).take (n + 1) = v :: (m.slots.drop (start + 1)).take n := by
        rw [List.drop_eq_getElem_cons hl, List.take_succ_cons]
        congr 1
        exact (List.getElem?_eq_some_iff.1 es).2
      rw [ed, rcAll]
      have e0 : m.decSlot f start = (decK f m v).bind fun m1 => KRes.of (.ok (m1.forget start (m.last v))) := by unfold KMem.decSlot; rw [es]
      have hb := KRes.bind_lost h
      rw [e0] at h hb ⊢
      have h1 := decK_same f m v (KRes.bind_lost hb)
      rw [KRes.bind_res]
      rcases e : (decK f m v).res with m1 | _ | _ | _ <;> rw [e] at h1
      · obtain ⟨b1, b2, b3, b4⟩ := h1
        rw [b1]
        have h2 := decSlots_same f n (m1.forget start (m.last v)) (start + 1) (KRes.bind_lost' h (by rw [KRes.bind_res, e]; rfl))
        rw [slotForget_heap] at h2
        have q : ((m1.forget start (m.last v)).slots.drop (start + 1)).take n = (m.slots.drop (start + 1)).take n := by
          congr 1
          apply List.ext_getElem?
          intro j
          rw [List.getElem?_drop, List.getElem?_drop, slotForget_other (by omega), b2]
        rw [q] at h2
        show SlotsSame m start (n + 1) ((m1.forget start (m.last v)).decSlots f (start + 1) n).res (rcAll (decRef f) m1.heap _)
        rcases e2 : ((m1.forget start (m.last v)).decSlots f (start + 1) n).res with m2 | _ | _ | _ <;> rw [e2] at h2
        · obtain ⟨c1, c2, c3, c4, c5⟩ := h2
          rw [slotForget_length] at c2; rw [slotForget_kind] at c4 c5; rw [slotForget_heap] at c5
          refine ⟨c1, by rw [c2, b2], fun j hj => ?_, c4.trans b3, b4.trans (b3 ▸ c5)⟩
          rw [c3 j (by omega), slotForget_other (by omega), b2]
        · exact h2
        · exact h2
        · rcases h2 with h2 | h2
          · exact .inl h2
          · right; rw [slotForget_length, b2] at h2; omega
      · rw [show decRef f m.heap v = _ from h1]; exact rfl
      · rw [show decRef f m.heap v = _ from h1]; exact rfl
      · rw [show decRef f m.heap v = _ from h1]; exact .inl rfl

theorem drop_agree {l l' : List RV} {k : Nat} (h : ∀ j, k ≤ j → l'[j]? = l[j]?) : l'.drop k = l.drop k := by
  apply List.ext_getElem?
  intro j
  rw [List.getElem?_drop, List.getElem?_drop, h _ (by omega)]

theorem take_agree {l l' : List RV} {k : Nat} (h : ∀ j, j < k → l'[j]? = l[j]?) : l'.take k = l.take k := by
  apply List.ext_getElem?
  intro j
  by_cases hj : j < k
  · rw [List.getElem?_take_of_lt hj, List.getElem?_take_of_lt hj, h _ hj]
  · rw [List.getElem?_take_eq_none (by omega), List.getElem?_take_eq_none (by omega)]

theorem kstep_rmRange {s : KState} (I : ClInv s) (b e : Nat) : KSafe (s.step (.rmRange b e)) := by
  have R := step_rmRange I.r b e
  simp only [RState.step, RState.rmRange] at R
  simp only [KState.step]
  by_cases hc : b > e ∨ e > s.top ∨ s.top > s.mem.slots.length
  · rw [if_pos hc]; exact fun _ => .inl rfl
  rw [if_neg hc]
  rw [if_neg (show ¬ (b > e ∨ e > s.toR.top ∨ s.toR.top > s.toR.slots.length) from hc)] at R
  intro h
  obtain ⟨g1, g2, g3⟩ : b ≤ e ∧ e ≤ s.top ∧ s.top ≤ s.mem.slots.length := by omega
  have h1 := decSlots_same s.fuel (min (s.top - e) (e - b)) s.mem b (KRes.bind_lost h)
  rw [KRes.bind_res]
  rw [show rcAll (decRef s.toR.fuel) s.toR.heap ((s.toR.slots.drop b).take (min (s.toR.top - e) (e - b))) =
    rcAll (decRef s.fuel) s.mem.heap ((s.mem.slots.drop b).take (min (s.top - e) (e - b))) from rfl] at R
  rcases e1 : (s.mem.decSlots s.fuel b (min (s.top - e) (e - b))).res with m | _ | _ | _ <;> rw [e1] at h1
  · obtain ⟨b1, b2, b3, b4, b5⟩ := h1
    rw [b1] at R
    rw [RcRes.bind, KRes.bind_res]
    rw [show ∀ f : RHeap → RcRes RState, (RcRes.ok m.heap).bind f = f m.heap from fun _ => rfl] at R
    have q1 : m.slots.drop (s.top - min (s.top - e) (e - b)) = s.mem.slots.drop (s.top - min (s.top - e) (e - b)) := drop_agree fun j hj => b3 j (by omega)
    have q2 : m.slots.drop e = s.mem.slots.drop e := drop_agree fun j hj => b3 j (by omega)
    have q3 : m.slots.drop (b + (s.top - e)) = s.mem.slots.drop (b + (s.top - e)) := drop_agree fun j hj => b3 j (by omega)
    have q4 : m.slots.take b = s.mem.slots.take b := take_agree fun j hj => b3 j (by omega)
    rw [q1, q2, q3, q4]
    show RcRes.bind (rcAll incRef m.heap _) _ = _ ∨ _
    rw [show ((s.toR.slots.drop (s.toR.top - min (s.toR.top - e) (e - b))).take (min (s.toR.top - e) (e - b))).reverse =
      ((s.mem.slots.drop (s.top - min (s.top - e) (e - b))).take (min (s.top - e) (e - b))).reverse from rfl] at R
    rcases e2 : rcAll incRef m.heap ((s.mem.slots.drop (s.top - min (s.top - e) (e - b))).take (min (s.top - e) (e - b))).reverse with h2 | _ | _ | _ <;>
      rw [e2] at R
    · rcases R with R | ⟨t, et, It⟩
      · cases R
      · cases et
        exact .inr ⟨_, rfl, It, I.o.stays b4 (b5.trans (incAll_stays _ _ e2))⟩
    · rcases R with R | ⟨t, et, It⟩
      · cases R
      · cases et
    · rcases R with R | ⟨t, et, It⟩
      · cases R
      · cases et
    · exact .inl rfl
  · rw [show rcAll (decRef s.fuel) s.mem.heap _ = _ from h1] at R
    rcases R with R | ⟨t, et, It⟩
    · cases R
    · cases et
  · rw [show rcAll (decRef s.fuel) s.mem.heap _ = _ from h1] at R
    rcases R with R | ⟨t, et, It⟩
    · cases R
    · cases et
  · exact .inl rfl

end Yasl
