import Verif.Proofs.ClosuresStep
set_option autoImplicit false
/-! # Closures and reference counts: upvalues -/
namespace Yasl

theorem RcRes.ok_bind {α β : Type} (a : α) (f : α → RcRes β) : (RcRes.ok a).bind f = f a := rfl

theorem incRef_next {h h' : RHeap} {v : RV} (e : incRef h v = .ok h') : h'.next = h.next := by
  unfold incRef at e
  split at e
  · cases e; rfl
  · split at e
    · cases e
    · cases e; rfl

/-- While a closure is made: the upvalues taken so far are counted. -/
structure Taking (s : KState) (acc : List RV) (s' : KState) : Prop where
  bal : Bal ∅ s'.mem.heap (acc ++ s'.mem.slots)
  nz : NZ s'.mem.heap
  o : KOpen s'.mem s'.pending
  slots : s'.mem.slots = s.mem.slots
  top : s'.top = s.top
  /-- what was an object is one, of the same kind and contents -/
  kept : ∀ a c, s.mem.heap.cell a = some c → s'.mem.kind a = s.mem.kind a ∧ ∃ c', s'.mem.heap.cell a = some c' ∧ c'.items = c.items

theorem NZ.incRef {h h' : RHeap} {v : RV} (N : ∀ a c, h.cell a = some c → 0 < c.refs ∨ v = some a) (e : incRef h v = .ok h') : NZ h' := by
  unfold Yasl.incRef at e
  split at e
  · cases e
    intro a c ec
    rcases N a c ec with p | p
    · exact p
    · cases p
  · rename_i b
    split at e
    · cases e
    · rename_i c0 ec0
      cases e
      intro a c ec
      rw [put_cell] at ec
      split at ec
      · cases ec; exact Nat.succ_pos _
      · rename_i ne
        rcases N a c ec with p | p
        · exact p
        · cases p; exact absurd rfl ne

theorem incRef_kept {h h' : RHeap} {v : RV} (e : incRef h v = .ok h') {a : Nat} {c : Cell} (ec : h.cell a = some c) :
    ∃ c', h'.cell a = some c' ∧ c'.items = c.items := by
  unfold incRef at e
  split at e
  · cases e; exact ⟨c, ec, rfl⟩
  · split at e
    · cases e
    · rename_i b _ c0 e0
      cases e
      rw [put_cell]
      split
      · rename_i ea; subst ea; rw [e0] at ec; cases ec; exact ⟨_, rfl, rfl⟩
      · exact ⟨c, ec, rfl⟩

/-- Taking one more reference to an upvalue that is there. -/
theorem Taking.more {s s' : KState} {acc : List RV} (T : Taking s acc s') {u : Nat} (lv : ∃ c, s'.mem.heap.cell u = some c) :
    ∃ h, incRef s'.mem.heap (some u) = .ok h ∧ Taking s (some u :: acc) { s' with mem := { s'.mem with heap := h } } := by
  obtain ⟨h, e, B, G⟩ := incRef_ok T.bal (v := some u) (fun a ha => by cases ha; exact lv)
  refine ⟨h, e, ⟨B, T.nz.grow G, T.o.stays rfl (incRef_stays _ e), T.slots, T.top, fun a c ec => ?_⟩⟩
  obtain ⟨k, c', e', i'⟩ := T.kept a c ec
  obtain ⟨c2, e2, i2⟩ := incRef_kept e e'
  exact ⟨k, c2, e2, i2.trans i'⟩

theorem k_seek_spec {m : KMem} {i new : Nat} : ∀ {us : List Nat}, (∀ u ∈ us, ∃ i c, m.kind u = .opened i ∧ m.heap.cell u = some c ∧ c.items = [] ∧ i < 1024) →
    ∃ r, m.seek i new us = .ok r ∧ (match r.1 with | some u => u ∈ us ∧ r.2 = us | none => r.2.Perm (new :: us))
  | [], _ => ⟨_, rfl, .refl _⟩
  | u :: us, h => by
    obtain ⟨j, c, h1, h2, _⟩ := h u (by simp)
    rw [KMem.seek, h2, h1]; dsimp only
    split
    · obtain ⟨r, e, hr⟩ := k_seek_spec (i := i) (new := new) (us := us) fun u hu => h u (List.mem_cons_of_mem _ hu)
      rw [e]
      refine ⟨_, rfl, ?_⟩
      dsimp only
      rcases e1 : r.1 with _ | w <;> rw [e1] at hr
      · exact (hr.cons u).trans (List.Perm.swap _ _ _)
      · exact ⟨List.mem_cons_of_mem _ hr.1, by rw [hr.2]⟩
    · split
      · exact ⟨_, rfl, by simp, rfl⟩
      · exact ⟨_, rfl, List.Perm.swap _ _ _⟩

theorem k_addUpvalue_spec {s s' : KState} {acc : List RV} (T : Taking s acc s') {i : Nat} (hi : i < 1024) :
    ∃ s'' u, s'.addUpvalue i = .ok (s'', u) ∧ Taking s (some u :: acc) s'' := by
  obtain ⟨r, e, hr⟩ := k_seek_spec (m := s'.mem) (i := i) (new := s'.mem.heap.next) T.o.pend
  unfold KState.addUpvalue
  rw [e, RcRes.ok_bind]
  rcases e1 : r.1 with _ | u <;> rw [e1] at hr
  · dsimp only at hr ⊢
    have fr : s'.mem.heap.cell s'.mem.heap.next = none := T.bal.fresh _ (le_refl _)
    have B : Bal ∅ (s'.mem.heap.alloc []) (acc ++ s'.mem.slots) := by
      have := alloc_bal T.bal []
      exact Bal.closed (a := s'.mem.heap.next) (c := ⟨0, []⟩) (by simpa using this) (alloc_self _ _) (by simp)
    obtain ⟨h, eh, B2, G⟩ := incRef_ok (h := (s'.mem.alloc [] (.opened i)).heap) B (v := some s'.mem.heap.next) (fun a ha => by cases ha; exact ⟨_, alloc_self _ _⟩)
    rw [eh]
    refine ⟨_, _, rfl, ⟨B2, ?_, ?_, T.slots, T.top, fun a c ec => ?_⟩⟩
    · refine NZ.incRef (fun a c ec => ?_) eh
      by_cases ea : a = s'.mem.heap.next
      · exact .inr (by rw [ea])
      · left
        have ec : (s'.mem.heap.alloc []).cell a = some c := ec
        simp only [RHeap.alloc, if_neg ea] at ec
        exact T.nz a c ec
    · have lt : ∀ u ∈ s'.pending, u ≠ s'.mem.heap.next := by
        rintro u hu rfl
        obtain ⟨_, c, _, h2, _⟩ := T.o.pend _ hu
        rw [fr] at h2; cases h2
      have K : KOpen (s'.mem.alloc [] (.opened i)) r.2 := by
        refine ⟨fun u hu => ?_, fun u j h1 h2 => ?_, ?_⟩
        · rcases List.mem_cons.1 (hr.subset hu) with rfl | hu
          · exact ⟨i, ⟨0, []⟩, by simp [KMem.alloc], alloc_self _ _, rfl, hi⟩
          · obtain ⟨j, c, h1, h2, h3⟩ := T.o.pend u hu
            exact ⟨j, c, by simp only [KMem.alloc, if_neg (lt u hu)]; exact h1, by simp only [KMem.alloc, RHeap.alloc, if_neg (lt u hu)]; exact h2, h3⟩
        · refine hr.symm.subset ?_
          by_cases ea : u = s'.mem.heap.next
          · rw [ea]; simp
          · simp only [KMem.alloc, RHeap.alloc, if_neg ea] at h1 h2
            exact List.mem_cons_of_mem _ (T.o.all u j h1 h2)
        · refine hr.symm.nodup (List.nodup_cons.2 ⟨fun hm => lt _ hm rfl, T.o.nodup⟩)
      exact K.stays rfl (incRef_stays _ eh)
    · obtain ⟨k, c', e', i'⟩ := T.kept a c ec
      have ea : a ≠ s'.mem.heap.next := by rintro rfl; rw [fr] at e'; cases e'
      obtain ⟨c2, e2, i2⟩ := incRef_kept eh (a := a) (c := c') (by show (s'.mem.heap.alloc []).cell a = _; simp only [RHeap.alloc, if_neg ea]; exact e')
      exact ⟨by simp only [KMem.alloc, if_neg ea]; exact k, c2, e2, i2.trans i'⟩
  · dsimp only at hr ⊢
    obtain ⟨_, c, _, h2, _⟩ := T.o.pend u hr.1
    obtain ⟨h, eh, T'⟩ := T.more (u := u) ⟨c, h2⟩
    rw [eh]
    exact ⟨_, _, rfl, T'⟩

/-- The closure in a slot and its upvalue. -/
theorem upvalue_spec {s : KState} {R : List RV} (B : Bal ∅ s.mem.heap (R ++ s.mem.slots)) (fn j : Nat) :
    s.upvalue fn j = .bad ∨ ∃ u a c, s.upvalue fn j = .ok u ∧ s.mem.slots[fn]? = some (some a) ∧ s.mem.heap.cell a = some c ∧ c.items[j]? = some (some u) ∧
      ∃ cu, s.mem.heap.cell u = some cu := by
  unfold KState.upvalue KState.upvalues
  rcases es : s.mem.slots[fn]? with _ | _ | a
  · exact .inl rfl
  · exact .inl rfl
  dsimp only
  obtain ⟨c, ec⟩ := B.mem_live (a := a) (List.mem_append_right _ (List.mem_of_getElem? es))
  rw [ec]; dsimp only
  by_cases hk : s.mem.kind a = .closure
  · rw [if_pos hk]
    show (match c.items[j]? with | some (some u) => RcRes.ok u | _ => .bad) = .bad ∨ ∃ u a' c', (match c.items[j]? with | some (some u) => RcRes.ok u | _ => .bad) = _ ∧ _
    rcases ej : c.items[j]? with _ | _ | u
    · exact .inl rfl
    · exact .inl rfl
    · exact .inr ⟨u, a, c, rfl, rfl, ec, ej, B.item_live ec (by simp) (List.mem_of_getElem? ej)⟩
  · rw [if_neg hk]; exact .inl rfl

theorem takeUpvalues_spec (s : KState) (fn : Nat) : ∀ (xs : List KSrc) {s' : KState} {acc : List RV}, Taking s acc s' →
    s'.takeUpvalues fn xs = .bad ∨ ∃ s'' us, s'.takeUpvalues fn xs = .ok (s'', us) ∧ Taking s (us.reverse ++ acc) s''
  | [], s', acc, T => .inr ⟨s', [], rfl, T⟩
  | x :: xs, s', acc, T => by
    have one : s'.takeUpvalue fn x = .bad ∨ ∃ s'' u, s'.takeUpvalue fn x = .ok (s'', u) ∧ Taking s (some u :: acc) s'' := by
      cases x with
      | local_ i =>
        simp only [KState.takeUpvalue]
        by_cases hi : i < 1024
        · rw [if_pos hi]; exact .inr (k_addUpvalue_spec T hi)
        · rw [if_neg hi]; exact .inl rfl
      | outer j =>
        rcases upvalue_spec T.bal fn j with e | ⟨u, a, c, e, _, _, _, lv⟩
        · left; simp only [KState.takeUpvalue]; rw [e]; rfl
        · right
          obtain ⟨h, eh, T'⟩ := T.more lv
          refine ⟨_, u, ?_, T'⟩
          simp only [KState.takeUpvalue]; rw [e]
          show (incRef _ _).bind _ = _
          rw [eh]; rfl
    rw [KState.takeUpvalues]
    rcases one with e | ⟨s1, u, e, T1⟩
    · rw [e]; exact .inl rfl
    · rw [e]
      show RcRes.bind (s1.takeUpvalues fn xs) _ = _ ∨ ∃ s'' us, RcRes.bind (s1.takeUpvalues fn xs) _ = _ ∧ _
      rcases takeUpvalues_spec s fn xs T1 with e2 | ⟨s2, us, e2, T2⟩
      · rw [e2]; exact .inl rfl
      · rw [e2]
        exact .inr ⟨s2, some u :: us, rfl, by simpa using T2⟩

theorem ClInv.taking {s : KState} (I : ClInv s) : Taking s [] s :=
  ⟨by simpa [KState.toR] using I.r.bal, I.r.nz, I.o, rfl, rfl, fun _ c e => ⟨rfl, c, e, rfl⟩⟩

theorem kstep_closure {s : KState} (I : ClInv s) (fn : Nat) (xs : List KSrc) : KSafe (s.step (.closure fn xs)) := by
  show KSafe (s.cconst fn xs)
  unfold KState.cconst
  rcases takeUpvalues_spec s fn xs I.taking with e | ⟨s', us, e, T⟩
  · intro _; left; rw [KRes.bind_res]; show RcRes.bind (s.takeUpvalues fn xs) _ = _; rw [e]; rfl
  · rw [KRes.bind_ok (a := (s', us)) e]
    show KSafe ⟨false || _, _⟩
    rw [Bool.false_or]
    have T : Taking s us.reverse s' := by simpa using T
    have fr : s'.mem.heap.cell s'.mem.heap.next = none := T.bal.fresh _ (le_refl _)
    have B0 : Bal {s'.mem.heap.next} (s'.mem.heap.alloc us) (us ++ s'.mem.slots) :=
      (alloc_bal T.bal us).perm (List.Perm.append_right _ us.reverse_perm)
    have B : Bal ∅ (s'.mem.heap.alloc us) s'.mem.slots :=
      Bal.closed (a := s'.mem.heap.next) (c := ⟨0, us⟩) (by simpa using B0) (alloc_self _ _) (by simp)
    have len : s'.mem.slots.length = 1024 := by rw [T.slots]; exact I.r.len
    have r0 : (s'.mem.heap.alloc us).refsOf s'.mem.heap.next = 0 := by unfold RHeap.refsOf; rw [alloc_self]
    refine kpush_safe (s := { s' with mem := s'.mem.alloc us .closure }) (T.o.alloc fr us (by simp)) ?_
    rcases push_ok (L := []) (s := KState.toR { s' with mem := s'.mem.alloc us .closure }) (v := some s'.mem.heap.next) (by simpa only [KState.toR, KMem.alloc, List.append_nil] using B) len (by
        intro a c ec
        by_cases ea : a = s'.mem.heap.next
        · exact .inr (by rw [ea])
        · left
          have ec : (s'.mem.heap.alloc us).cell a = some c := ec
          simp only [RHeap.alloc, if_neg ea] at ec
          exact T.nz a c ec) (by
        intro h' _ B' S a ha
        cases ha
        exact ⟨_, (S.zero r0).trans (alloc_self _ _)⟩)
      with e | ⟨t, e, I', _⟩
    · exact .inl e
    · exact .inr ⟨t, e, I'⟩

theorem Shr.items {h h' : RHeap} (S : Shr h h') {a : Nat} {c : Cell} (e : h.cell a = some c) (lv : ∃ c', h'.cell a = some c') :
    ∃ c', h'.cell a = some c' ∧ c'.items = c.items := by
  obtain ⟨c', e'⟩ := lv
  obtain ⟨c0, f0, f1, _⟩ := S.some_inv e'
  rw [e] at f0; cases f0
  exact ⟨c', e', f1.symm⟩

theorem kstep_uload {s : KState} (I : ClInv s) (fn j : Nat) : KSafe (s.step (.uload fn j)) := by
  simp only [KState.step]
  by_cases hf : fn < s.top
  · rw [if_pos hf]
    have B : Bal ∅ s.mem.heap ([] ++ s.mem.slots) := by simpa [KState.toR] using I.r.bal
    rcases upvalue_spec B fn j with e | ⟨u, a, c, e, ea, ec, ej, cu, ecu⟩
    · intro _; left; rw [KRes.bind_res]; show RcRes.bind (s.upvalue fn j) _ = _; rw [e]; rfl
    · rw [KRes.bind_ok (a := u) e]
      show KSafe ⟨false || _, _⟩
      rw [Bool.false_or]
      have look : ∀ h', Bal ∅ h' (s.mem.slots.eraseIdx s.top ++ ([] ++ [])) → Shr s.mem.heap h' → ∃ c', h'.cell u = some c' ∧ c'.items = cu.items := by
        intro h' B' S
        have m1 : some a ∈ s.mem.slots.eraseIdx s.top := mem_eraseIdx_of ea (by omega)
        obtain ⟨c1, e1, i1⟩ := S.items ec (B'.mem_live (List.mem_append_left _ m1))
        exact S.items ecu (B'.item_live e1 (by simp) (i1 ▸ List.mem_of_getElem? ej))
      intro hl
      have st := KRes.bind_lost hl
      unfold KMem.upvalGet at hl ⊢
      rw [ecu] at hl ⊢
      dsimp only at hl ⊢
      rcases hk : s.mem.kind u with _ | _ | i | _
      · rw [hk] at hl; exact .inl rfl
      · exact .inl rfl
      · rw [hk] at hl
        dsimp only at hl ⊢
        have sti : ¬ s.top ≤ i := by
          have st : s.stale u = false := st
          unfold KState.stale at st; rw [hk] at st; simpa using st
        rcases es : s.mem.slots[i]? with _ | v <;> rw [es] at hl
        · exact .inl rfl
        · rw [KRes.bind_res]
          refine kpush_safe I.o (push_safe I.r (t := s.top) (v := v) ?_) (KRes.bind_lost' hl rfl)
          intro h' _ B' S b hb
          exact B'.mem_live (List.mem_append_left _ (mem_eraseIdx_of (hb ▸ es) (by omega)))
      · rw [hk] at hl
        dsimp only at hl ⊢
        rcases ei : cu.items with _ | ⟨v, _ | ⟨w, ws⟩⟩ <;> rw [ei] at hl
        · exact .inl rfl
        · rw [KRes.bind_res]
          refine kpush_safe I.o (push_safe I.r (t := s.top) (v := v) ?_) (KRes.bind_lost' hl rfl)
          intro h' _ B' S b hb
          obtain ⟨c', e', i'⟩ := look h' B' S
          exact B'.item_live e' (by simp) (by rw [i', ei, hb]; simp)
        · exact .inl rfl
  · rw [if_neg hf]; exact fun _ => .inl rfl

theorem Stays.put_items {k : Nat → KKind} {h : RHeap} {a : Nat} {c : Cell} (na : ∀ i, k a ≠ .opened i) (e : h.cell a = some c) (c' : Cell) :
    Stays k h (h.put a (some c')) := by
  constructor
  · intro u hu
    rw [put_cell] at hu
    split at hu
    · rename_i ea; rw [ea, e]; simp
    · exact hu
  · intro u i cu hk eu
    rw [put_cell, if_neg (by rintro rfl; exact na i hk)]
    exact ⟨cu, eu, rfl⟩

theorem decK_ok {m : KMem} {v : RV} {D : Finset Nat} {R : List RV} {f : Nat} (hl : (decK f m v).lost = false) (B : Bal D m.heap (v :: R)) (P : Pin D m.heap R)
    (F : (posSet m.heap).card ≤ f) : ∃ m', (decK f m v).res = .ok m' ∧ Bal D m'.heap R ∧ Shr m.heap m'.heap ∧ m'.slots = m.slots ∧ m'.kind = m.kind ∧
      Stays m.kind m.heap m'.heap := by
  obtain ⟨h', e, B', S⟩ := decRef_ok f D m.heap v R B P F
  have h1 := decK_same f m v hl
  rw [e] at h1
  rcases e1 : (decK f m v).res with m1 | _ | _ | _ <;> rw [e1] at h1
  · obtain ⟨b1, b2, b3, b4⟩ := h1
    cases b1
    exact ⟨m1, rfl, B', S, b2, b3, b4⟩
  all_goals cases h1

theorem upvalSet_ok {m : KMem} {R : List RV} {f u a j : Nat} {c cu : Cell} {v : RV} (B : Bal ∅ m.heap (v :: m.slots)) (N : NZ m.heap)
    (ea : some a ∈ m.slots) (ec : m.heap.cell a = some c) (ej : c.items[j]? = some (some u)) (ka : m.kind a = .closure) (ecu : m.heap.cell u = some cu)
    (F : m.heap.next ≤ f) (hl : (m.upvalSet f u v).lost = false) : (m.upvalSet f u v).res = .bad ∨
      ∃ m', (m.upvalSet f u v).res = .ok m' ∧ Bal ∅ m'.heap m'.slots ∧ NZ m'.heap ∧ m'.slots.length = m.slots.length ∧ m'.kind = m.kind ∧
        Stays m.kind m.heap m'.heap := by
  unfold KMem.upvalSet at hl ⊢
  rw [ecu] at hl ⊢
  dsimp only at hl ⊢
  rcases hk : m.kind u with _ | _ | i | _
  · left; rw [KRes.bind_res]; unfold KMem.upvalGet; rw [ecu]; dsimp only; rw [hk]; rfl
  · left; rw [KRes.bind_res]; unfold KMem.upvalGet; rw [ecu]; dsimp only; rw [hk]; rfl
  · rcases es : m.slots[i]? with _ | old
    · left; rw [KRes.bind_res]; unfold KMem.upvalGet; rw [ecu]; dsimp only; rw [hk]; dsimp only; rw [es]; rfl
    · have eg : m.upvalGet u = .ok old := by unfold KMem.upvalGet; rw [ecu]; dsimp only; rw [hk]; dsimp only; rw [es]
      have il : i < m.slots.length := (List.getElem?_eq_some_iff.1 es).1
      have hl1 := KRes.bind_lost' hl (a := old) eg
      obtain ⟨m1, e1, B1, S1, q1, q2, q3⟩ := decK_ok (D := ∅) (R := v :: m.slots.eraseIdx i) (KRes.bind_lost hl1)
        (B.perm (((perm_eraseIdx es).cons v).trans (List.Perm.swap _ _ _))) (by intro b hb; simp at hb) (le_trans (posSet_le _) F)
      obtain ⟨c1, ec1, _⟩ := q3.there u i cu hk ecu
      rw [KRes.bind_res, show (KRes.of (m.upvalGet u)).res = .ok old from eg, RcRes.ok_bind, KRes.bind_res, e1, RcRes.ok_bind, ec1]
      dsimp only
      rw [q2, hk]
      refine .inr ⟨_, rfl, ?_, N.shr S1, ?_, rfl, q3⟩
      · show Bal ∅ m1.heap (m1.slots.set i v)
        rw [q1]; exact B1.perm (perm_set il v).symm
      · show (m1.slots.set i v).length = _
        rw [List.length_set, q1]
  · rcases ei : cu.items with _ | ⟨old, _ | ⟨w, ws⟩⟩
    · left; rw [KRes.bind_res]; unfold KMem.upvalGet; rw [ecu]; dsimp only; rw [hk, ei]; rfl
    · have eg : m.upvalGet u = .ok old := by unfold KMem.upvalGet; rw [ecu]; dsimp only; rw [hk]; dsimp only; rw [ei]
      have hl1 := KRes.bind_lost' hl (a := old) eg
      have ne : u ≠ a := by rintro rfl; rw [ka] at hk; cases hk
      have Ba := B.opened ec (by simp)
      have Bu := Ba.opened ecu (by simpa using ne)
      rw [ei] at Bu
      have mu : some u ∈ c.items ++ (v :: m.slots) := List.mem_append_left _ (List.mem_of_getElem? ej)
      have ma : some a ∈ c.items ++ (v :: m.slots) := List.mem_append_right _ (List.mem_cons_of_mem _ ea)
      obtain ⟨m1, e1, B1, S1, q1, q2, q3⟩ := decK_ok (KRes.bind_lost hl1) (R := c.items ++ (v :: m.slots)) Bu (by
        intro b hb
        simp only [Finset.mem_insert] at hb
        rcases hb with rfl | rfl | hb
        · exact .inr mu
        · exact .inr ma
        · simp at hb) (le_trans (posSet_le _) F)
      obtain ⟨c1, ec1, i1⟩ := S1.items ecu (B1.mem_live mu)
      obtain ⟨c2, ec2, i2⟩ := S1.items ec (B1.mem_live ma)
      rw [KRes.bind_res, show (KRes.of (m.upvalGet u)).res = .ok old from eg, RcRes.ok_bind, KRes.bind_res, e1, RcRes.ok_bind, ec1]
      dsimp only
      rw [q2, hk]
      refine .inr ⟨_, rfl, ?_, (N.shr S1).put_items ec1 _, by rw [q1], rfl, q3.trans (.put_items (by rw [hk]; simp) ec1 _)⟩
      have Bp := B1.put_items ec1 (by simp) [v]
      have Bq : Bal (insert a ∅) (m1.heap.put u (some { c1 with items := [v] })) (c.items ++ m.slots) :=
        Bal.closed (a := u) (c := { c1 with items := [v] }) (Bp.perm List.perm_middle) put_self (by simpa using ne)
      show Bal ∅ (m1.heap.put u (some { c1 with items := [v] })) m1.slots
      rw [q1]
      exact Bal.closed (a := a) (c := c2) (by rw [i2]; exact Bq) (by rw [put_cell, if_neg (Ne.symm ne)]; exact ec2) (by simp)
    · left; rw [KRes.bind_res]; unfold KMem.upvalGet; rw [ecu]; dsimp only; rw [hk, ei]; rfl

theorem upvalue_closure {s : KState} {fn j u a : Nat} {c : Cell} (e : s.upvalue fn j = .ok u) (ea : s.mem.slots[fn]? = some (some a)) (ec : s.mem.heap.cell a = some c) :
    s.mem.kind a = .closure := by
  unfold KState.upvalue KState.upvalues at e
  rw [ea] at e; dsimp only at e
  rw [ec] at e; dsimp only at e
  by_contra hk
  rw [if_neg hk] at e; cases e

theorem kstep_ustore {s : KState} (I : ClInv s) (fn j : Nat) : KSafe (s.step (.ustore fn j)) := by
  simp only [KState.step]
  by_cases hf : fn + 1 < s.top
  · rw [if_pos hf]
    rcases ev : s.mem.slots[s.top - 1]? with _ | v
    · exact fun _ => .inl rfl
    dsimp only
    obtain ⟨h, eh, B, G⟩ := incRef_ok I.r.bal (v := v) (fun b hb => I.r.bal.mem_live (List.mem_append_left _ (List.mem_of_getElem? (hb ▸ ev))))
    have eh : incRef s.mem.heap v = .ok h := eh
    rw [KRes.bind_ok (a := h) eh]
    show KSafe ⟨false || _, _⟩
    rw [Bool.false_or]
    have B : Bal ∅ h (v :: s.mem.slots) := by simpa [KState.toR] using B
    have S0 := incRef_stays s.mem.kind eh
    rcases upvalue_spec (s := { s with mem := { s.mem with heap := h } }) (R := [v]) B fn j with e | ⟨u, a, c, e, ea, ec, ej, cu, ecu⟩
    · intro _; left; rw [KRes.bind_res]; show RcRes.bind (KState.upvalue _ fn j) _ = _; rw [e]; rfl
    · rw [KRes.bind_ok (a := u) e]
      show KSafe ⟨false || _, _⟩
      rw [Bool.false_or]
      intro hl
      have ka := upvalue_closure e ea ec
      rw [KRes.bind_res]
      rcases upvalSet_ok (R := []) (m := { s.mem with heap := h }) B (I.r.nz.grow G) (List.mem_of_getElem? ea) ec ej ka ecu
        (f := s.fuel) (by show h.next ≤ s.mem.heap.next; rw [incRef_next eh]) (KRes.bind_lost hl) with e2 | ⟨m', e2, B2, N2, l2, k2, S2⟩
      · left; rw [e2]; rfl
      · rw [e2]
        refine .inr ⟨_, rfl, ⟨by simpa [KState.toR] using B2, l2.trans I.r.len, ?_, N2⟩, I.o.stays k2 (S0.trans S2)⟩
        show s.top - 1 ≤ 1024
        have : s.top ≤ 1024 := I.r.top
        omega
  · rw [if_neg hf]; exact fun _ => .inl rfl

theorem k_closeFrom_spec (stop : Nat) : ∀ (us : List Nat) (m : KMem), KOpen m us → Bal ∅ m.heap m.slots → NZ m.heap → m.slots.length = 1024 →
    ∃ m' us', m.closeFrom stop us = .ok (m', us') ∧ KOpen m' us' ∧ Bal ∅ m'.heap m'.slots ∧ NZ m'.heap ∧ m'.slots = m.slots ∧ m'.heap.next = m.heap.next ∧
      ((∀ u ∈ us, ∀ i, m.kind u = .opened i → stop ≤ i) → us' = [])
  | [], m, K, B, N, _ => ⟨m, [], rfl, K, B, N, rfl, rfl, fun _ => rfl⟩
  | u :: us, m, K, B, N, L => by
    obtain ⟨i, c, h1, h2, h3, h4⟩ := K.pend u (by simp)
    rw [KMem.closeFrom, h2, h1]; dsimp only
    by_cases hs : i < stop
    · rw [if_pos hs]
      exact ⟨m, u :: us, rfl, K, B, N, rfl, rfl, fun hh => absurd (hh u (by simp) i h1) (by omega)⟩
    rw [if_neg hs]
    obtain ⟨v, ev⟩ : ∃ v, m.slots[i]? = some v := ⟨_, List.getElem?_eq_getElem (by omega)⟩
    rw [ev]; dsimp only
    obtain ⟨h, eh, B1, G⟩ := incRef_ok B (v := v) (fun b hb => B.mem_live (List.mem_of_getElem? (hb ▸ ev)))
    rw [eh, RcRes.ok_bind]
    obtain ⟨c1, e1, i1⟩ := (incRef_stays m.kind eh).there u i c h1 h2
    rw [e1]; dsimp only
    have Bo := B1.opened e1 (by simp)
    rw [i1, h3] at Bo
    have Bp := Bo.put_items e1 (by simp) [v]
    have Bc : Bal ∅ (h.put u (some { c1 with items := [v] })) m.slots := Bal.closed (a := u) (c := { c1 with items := [v] }) Bp put_self (by simp)
    have nu : u ∉ us := (List.nodup_cons.1 K.nodup).1
    have S0 := incRef_stays m.kind eh
    have K1 : KOpen { m with heap := h.put u (some { c1 with items := [v] }), kind := fun a => if a = u then .closed else m.kind a } us := by
      refine ⟨fun w hw => ?_, fun w k g1 g2 => ?_, (List.nodup_cons.1 K.nodup).2⟩
      · have nw : w ≠ u := by rintro rfl; exact nu hw
        obtain ⟨k, cw, g1, g2, g3, g4⟩ := K.pend w (List.mem_cons_of_mem _ hw)
        obtain ⟨cw', g5, g6⟩ := S0.there w k cw g1 g2
        exact ⟨k, cw', by dsimp only; rw [if_neg nw]; exact g1, by rw [put_cell, if_neg nw]; exact g5, g6.trans g3, g4⟩
      · dsimp only at g1
        by_cases nw : w = u
        · rw [if_pos nw] at g1; cases g1
        · rw [if_neg nw] at g1
          rw [put_cell, if_neg nw] at g2
          rcases List.mem_cons.1 (K.all w k g1 (S0.back w g2)) with e | e
          · exact absurd e nw
          · exact e
    obtain ⟨m', us', e, K', B', N', s', n', c'⟩ := k_closeFrom_spec stop us _ K1 Bc ((N.grow G).put_items e1 _) L
    refine ⟨m', us', e, K', B', N', s', n'.trans (show h.next = m.heap.next from incRef_next eh), fun hh => c' fun w hw k hk => ?_⟩
    have nw : w ≠ u := by rintro rfl; exact nu hw
    dsimp only at hk
    rw [if_neg nw] at hk
    exact hh w (List.mem_cons_of_mem _ hw) k hk

theorem k_closeAll_spec {s : KState} (I : ClInv s) (fp : Nat) : ∃ s', s.closeAll fp = .ok s' ∧ ClInv s' ∧ s'.mem.heap.next = s.mem.heap.next ∧
    ((∀ u ∈ s.pending, ∀ i, s.mem.kind u = .opened i → fp ≤ i) → s'.pending = []) := by
  obtain ⟨m', us', e, K', B', N', sl, n, c⟩ := k_closeFrom_spec fp s.pending s.mem I.o (by simpa [KState.toR] using I.r.bal) I.r.nz I.r.len
  unfold KState.closeAll
  rw [e]
  exact ⟨_, rfl, ⟨⟨by simpa [KState.toR] using B', by show m'.slots.length = 1024; rw [sl]; exact I.r.len, I.r.top, N'⟩, K'⟩, n, c⟩

theorem kstep_safe {s : KState} (I : ClInv s) : ∀ op : KOp, KSafe (s.step op)
  | .pushPlain => kstep_pushPlain I
  | .pushNew => kstep_pushNew I
  | .load i => kstep_load I i
  | .pop => kstep_pop I
  | .store i => kstep_store I i
  | .newList n => kstep_newList I n
  | .getItem i j => kstep_getItem I i j
  | .rmRange b e => kstep_rmRange I b e
  | .closure fn xs => kstep_closure I fn xs
  | .uload fn j => kstep_uload I fn j
  | .ustore fn j => kstep_ustore I fn j
  | .closeAll fp => by
    obtain ⟨s', e, I', _⟩ := k_closeAll_spec I fp
    intro _
    exact .inr ⟨s', e, I'⟩

theorem krun_safe : ∀ (ops : List KOp) {s : KState}, ClInv s → KSafe (s.run ops)
  | [], s, I => fun _ => .inr ⟨s, rfl, I⟩
  | op :: ops, s, I => by
    intro h
    rw [KState.run, KRes.bind_res]
    rcases kstep_safe I op (KRes.bind_lost h) with e | ⟨s', e, I'⟩
    · left; rw [e]; rfl
    · rw [e]
      exact krun_safe ops I' (KRes.bind_lost' h e)

/-- No open upvalue is left: nothing can be lost. -/
theorem decK_quiet : ∀ (f : Nat) (m : KMem) (v : RV), (∀ u i, m.kind u = .opened i → m.heap.cell u = none) →
    (decK f m v).lost = false ∧ ∀ m', (decK f m v).res = .ok m' → ∀ u i, m'.kind u = .opened i → m'.heap.cell u = none
  | _, m, none, Q => by unfold decK; exact ⟨rfl, fun m' e => by cases e; exact Q⟩
  | 0, m, some a, Q => by unfold decK; exact ⟨rfl, fun m' e => by cases e⟩
  | f + 1, m, some a, Q => by
    have put : ∀ (c : Option Cell), m.heap.cell a ≠ none → ∀ u i, m.kind u = .opened i → (m.heap.put a c).cell u = none := by
      intro c hc u i hk
      rw [put_cell, if_neg (by rintro rfl; exact hc (Q u i hk))]
      exact Q u i hk
    unfold decK
    cases ec : m.heap.cell a with
    | none => exact ⟨rfl, fun m' e => by cases e⟩
    | some c =>
      have hc : m.heap.cell a ≠ none := by rw [ec]; simp
      dsimp only
      split
      · exact ⟨rfl, fun m' e => by cases e; exact put _ hc⟩
      split
      · exact ⟨rfl, fun m' e => by cases e; exact put _ hc⟩
      have all : ∀ (vs : List RV) (m : KMem), (∀ u i, m.kind u = .opened i → m.heap.cell u = none) →
          (kAll (decK f) m vs).lost = false ∧ ∀ m', (kAll (decK f) m vs).res = .ok m' → ∀ u i, m'.kind u = .opened i → m'.heap.cell u = none := by
        intro vs
        induction vs with
        | nil => intro m Q; exact ⟨rfl, fun m' e => by cases e; exact Q⟩
        | cons v vs ih =>
          intro m Q
          obtain ⟨l1, r1⟩ := decK_quiet f m v Q
          rw [kAll]
          rcases e : (decK f m v).res with m1 | _ | _ | _
          · obtain ⟨l2, r2⟩ := ih m1 (r1 m1 e)
            rw [KRes.bind_ok e]
            exact ⟨by simp [l1, l2], r2⟩
          all_goals
            refine ⟨?_, fun m' e' => ?_⟩
            · unfold KRes.bind; rw [e]; exact l1
            · rw [KRes.bind_res, e] at e'; cases e'
      have main : ((kAll (decK f) { m with heap := m.heap.put a (some { c with refs := 0 }) } c.items).bind
          fun m1 => KRes.of (.ok { m1 with heap := m1.heap.put a none })).lost = false ∧
          ∀ m', ((kAll (decK f) { m with heap := m.heap.put a (some { c with refs := 0 }) } c.items).bind
          fun m1 => KRes.of (.ok { m1 with heap := m1.heap.put a none })).res = .ok m' → ∀ u i, m'.kind u = .opened i → m'.heap.cell u = none := by
        obtain ⟨l1, r1⟩ := all c.items { m with heap := m.heap.put a (some { c with refs := 0 }) } (put _ hc)
        rcases e : (kAll (decK f) { m with heap := m.heap.put a (some { c with refs := 0 }) } c.items).res with m1 | _ | _ | _
        · rw [KRes.bind_ok e]
          refine ⟨by rw [l1]; rfl, fun m' e' => ?_⟩
          cases e'
          intro u i hk
          show (m1.heap.put a none).cell u = none
          rw [put_cell]; split
          · rfl
          · exact r1 m1 e u i hk
        all_goals
          refine ⟨?_, fun m' e' => ?_⟩
          · unfold KRes.bind; rw [e]; exact l1
          · rw [KRes.bind_res, e] at e'; cases e'
      rcases hk : m.kind a with _ | _ | i | _
      · exact main
      · exact main
      · exact absurd (Q a i hk) hc
      · exact main

theorem decSlots_quiet (f : Nat) : ∀ (n : Nat) (m : KMem) (start : Nat), (∀ u i, m.kind u = .opened i → m.heap.cell u = none) → (m.decSlots f start n).lost = false
  | 0, _, _, _ => rfl
  | n + 1, m, start, Q => by
    unfold KMem.decSlots
    have h1 : (m.decSlot f start).lost = false ∧ ∀ m', (m.decSlot f start).res = .ok m' → ∀ u i, m'.kind u = .opened i → m'.heap.cell u = none := by
      unfold KMem.decSlot
      split
      · exact ⟨rfl, fun m' e => by cases e⟩
      · rename_i v _
        obtain ⟨l, r⟩ := decK_quiet f m v Q
        rcases e : (decK f m v).res with m1 | _ | _ | _
        · rw [KRes.bind_ok e]
          refine ⟨by rw [l]; rfl, fun m' e' => ?_⟩
          cases e'
          rw [slotForget_heap, slotForget_kind]; exact r m1 e
        all_goals
          refine ⟨?_, fun m' e' => ?_⟩
          · unfold KRes.bind; rw [e]; exact l
          · rw [KRes.bind_res, e] at e'; cases e'
    rcases e : (m.decSlot f start).res with m1 | _ | _ | _
    · rw [KRes.bind_ok e]
      show (_ || _) = false
      rw [h1.1, decSlots_quiet f n m1 (start + 1) (h1.2 m1 e)]; rfl
    all_goals (unfold KRes.bind; rw [e]; exact h1.1)

end Yasl
