import Verif.Model.Closures
import Verif.Proofs.RefCount
set_option autoImplicit false
/-! # Closures and reference counts: proofs -/
namespace Yasl

/-- The state as one without closures. -/
def KState.toR (s : KState) : RState := ⟨s.mem.heap, s.mem.slots, s.top, []⟩

theorem KRes.bind_ok {α β : Type} {x : KRes α} {f : α → KRes β} {a : α} (e : x.res = .ok a) : x.bind f = ⟨x.lost || (f a).lost, (f a).res⟩ := by
  unfold KRes.bind; rw [e]

theorem KRes.bind_lost {α β : Type} {x : KRes α} {f : α → KRes β} (h : (x.bind f).lost = false) : x.lost = false := by
  unfold KRes.bind at h
  split at h
  · simp only [Bool.or_eq_false_iff] at h; exact h.1
  all_goals exact h

theorem KRes.bind_lost' {α β : Type} {x : KRes α} {f : α → KRes β} (h : (x.bind f).lost = false) {a : α} (e : x.res = .ok a) : (f a).lost = false := by
  rw [KRes.bind_ok e] at h
  simp only [Bool.or_eq_false_iff] at h; exact h.2

theorem KRes.bind_res {α β : Type} (x : KRes α) (f : α → KRes β) : (x.bind f).res = x.res.bind fun a => (f a).res := by
  unfold KRes.bind RcRes.bind
  split <;> rename_i e <;> simp [e]

/-- Open upvalues stay, with what they hold; nothing comes back. -/
structure Stays (k : Nat → KKind) (h h' : RHeap) : Prop where
  back : ∀ u, h'.cell u ≠ none → h.cell u ≠ none
  there : ∀ u i c, k u = .opened i → h.cell u = some c → ∃ c', h'.cell u = some c' ∧ c'.items = c.items

theorem Stays.refl (k : Nat → KKind) (h : RHeap) : Stays k h h := ⟨fun _ e => e, fun _ _ c _ e => ⟨c, e, rfl⟩⟩

theorem Stays.trans {k : Nat → KKind} {h h1 h2 : RHeap} (A : Stays k h h1) (B : Stays k h1 h2) : Stays k h h2 :=
  ⟨fun u e => A.back u (B.back u e), fun u i c hk e => by
    obtain ⟨c1, e1, i1⟩ := A.there u i c hk e
    obtain ⟨c2, e2, i2⟩ := B.there u i c1 hk e1
    exact ⟨c2, e2, i2.trans i1⟩⟩

theorem Stays.put_refs {k : Nat → KKind} {h : RHeap} {a : Nat} {c : Cell} (e : h.cell a = some c) (r : Nat) : Stays k h (h.put a (some { c with refs := r })) := by
  constructor
  · intro u hu
    rw [put_cell] at hu
    split at hu
    · rename_i ea; rw [ea, e]; simp
    · exact hu
  · intro u i cu _ eu
    rw [put_cell]
    split
    · rename_i ea; subst ea; rw [e] at eu; cases eu; exact ⟨_, rfl, rfl⟩
    · exact ⟨cu, eu, rfl⟩

theorem Stays.put_none {k : Nat → KKind} {h : RHeap} {a : Nat} (na : ∀ i, k a ≠ .opened i) : Stays k h (h.put a none) := by
  constructor
  · intro u hu
    rw [put_cell] at hu
    split at hu
    · exact absurd rfl hu
    · exact hu
  · intro u i cu hk eu
    rw [put_cell, if_neg (by rintro rfl; exact na i hk)]
    exact ⟨cu, eu, rfl⟩

theorem incRef_stays {h h' : RHeap} {v : RV} (k : Nat → KKind) (e : incRef h v = .ok h') : Stays k h h' := by
  unfold incRef at e
  split at e
  · cases e; exact .refl k h
  · split at e
    · cases e
    · rename_i c ec; cases e; exact .put_refs ec _

theorem incAll_stays (k : Nat → KKind) : ∀ (vs : List RV) {h h' : RHeap}, rcAll incRef h vs = .ok h' → Stays k h h'
  | [], h, h', e => by cases e; exact .refl k h
  | v :: vs, h, h', e => by
    rw [rcAll] at e
    rcases e1 : incRef h v with h1 | _ | _ | _ <;> rw [e1] at e <;> try cases e
    exact (incRef_stays k e1).trans (incAll_stays k vs e)

/-- Giving up references lost no variable: it is what it is without closures. -/
def DecSame (m : KMem) (r : RcRes KMem) (q : RcRes RHeap) : Prop :=
  match r with
  | .ok m' => q = .ok m'.heap ∧ m'.slots = m.slots ∧ m'.kind = m.kind ∧ Stays m.kind m.heap m'.heap
  | .uaf => q = .uaf
  | .fuel => q = .fuel
  | .bad => q = .bad

theorem kAll_same {f : Nat} (IH : ∀ m v, (decK f m v).lost = false → DecSame m (decK f m v).res (decRef f m.heap v)) : ∀ (vs : List RV) (m : KMem),
    (kAll (decK f) m vs).lost = false → DecSame m (kAll (decK f) m vs).res (rcAll (decRef f) m.heap vs)
  | [], m, _ => ⟨rfl, rfl, rfl, .refl _ _⟩
  | v :: vs, m, h => by
    have h1 := IH m v (KRes.bind_lost h)
    rw [kAll, KRes.bind_res, rcAll]
    rcases e : (decK f m v).res with m1 | _ | _ | _ <;> rw [e] at h1
    · have h2 := kAll_same IH vs m1 (KRes.bind_lost' h e)
      obtain ⟨a1, a2, a3, a4⟩ := h1
      show DecSame m (kAll (decK f) m1 vs).res _
      rw [a1]
      show DecSame m _ (rcAll (decRef f) m1.heap vs)
      rcases e2 : (kAll (decK f) m1 vs).res with m2 | _ | _ | _ <;> rw [e2] at h2
      · obtain ⟨b1, b2, b3, b4⟩ := h2
        exact ⟨b1, b2.trans a2, b3.trans a3, a4.trans (a3 ▸ b4)⟩
      all_goals exact h2
    all_goals (show DecSame m _ _; rw [show decRef f m.heap v = _ from h1]; rfl)

theorem decK_same : ∀ (f : Nat) (m : KMem) (v : RV), (decK f m v).lost = false → DecSame m (decK f m v).res (decRef f m.heap v)
  | _, m, none, _ => by unfold decK decRef; exact ⟨rfl, rfl, rfl, .refl _ _⟩
  | 0, m, some a, _ => by unfold decK decRef; exact rfl
  | f + 1, m, some a, h => by
    unfold decK at h ⊢
    unfold decRef
    cases ec : m.heap.cell a with
    | none => exact rfl
    | some c =>
      rw [ec] at h
      dsimp only at h ⊢
      by_cases h0 : c.refs = 0
      · rw [if_pos h0, if_pos h0]; exact ⟨rfl, rfl, rfl, .put_refs ec _⟩
      rw [if_neg h0] at h
      rw [if_neg h0, if_neg h0]
      by_cases h1 : c.refs - 1 ≠ 0
      · rw [if_pos h1, if_pos h1]; exact ⟨rfl, rfl, rfl, .put_refs ec _⟩
      rw [if_neg h1] at h
      rw [if_neg h1, if_neg h1]
      have main : ∀ (_ : ∀ i, m.kind a ≠ .opened i), ((kAll (decK f) { m with heap := m.heap.put a (some { c with refs := 0 }) } c.items).bind
          fun m1 => KRes.of (.ok { m1 with heap := m1.heap.put a none })).lost = false →
          DecSame m ((kAll (decK f) { m with heap := m.heap.put a (some { c with refs := 0 }) } c.items).bind
          fun m1 => KRes.of (.ok { m1 with heap := m1.heap.put a none })).res
          ((rcAll (decRef f) (m.heap.put a (some { c with refs := 0 })) c.items).bind fun h => .ok (h.put a none)) := by
        intro hk hl
        have h2 := kAll_same (decK_same f) c.items { m with heap := m.heap.put a (some { c with refs := 0 }) } (KRes.bind_lost hl)
        rw [KRes.bind_res]
        rcases e : (kAll (decK f) { m with heap := m.heap.put a (some { c with refs := 0 }) } c.items).res with m1 | _ | _ | _ <;> rw [e] at h2
        · obtain ⟨b1, b2, b3, b4⟩ := h2
          have b1 : rcAll (decRef f) (m.heap.put a (some { c with refs := 0 })) c.items = .ok m1.heap := b1
          rw [b1]
          exact ⟨rfl, b2, b3, ((Stays.put_refs ec 0).trans b4).trans (.put_none hk)⟩
        all_goals
          rw [show rcAll (decRef f) (m.heap.put a (some { c with refs := 0 })) c.items = _ from h2]; exact rfl
      rcases hk : m.kind a with _ | _ | i | _ <;> rw [hk] at h <;> dsimp only at h ⊢
      · exact main (by rw [hk]; simp) h
      · exact main (by rw [hk]; simp) h
      · exfalso
        rcases es : m.slots[i]? with _ | v <;> rw [es] at h <;> dsimp only at h
        · cases h
        · have := KRes.bind_lost h; cases this
      · exact main (by rw [hk]; simp) h

/-- The list of open upvalues. -/
structure KOpen (m : KMem) (pending : List Nat) : Prop where
  pend : ∀ u ∈ pending, ∃ i c, m.kind u = .opened i ∧ m.heap.cell u = some c ∧ c.items = [] ∧ i < 1024
  all : ∀ u i, m.kind u = .opened i → m.heap.cell u ≠ none → u ∈ pending
  nodup : pending.Nodup

theorem KOpen.stays {m m' : KMem} {pending : List Nat} (K : KOpen m pending) (hk : m'.kind = m.kind) (S : Stays m.kind m.heap m'.heap) : KOpen m' pending := by
  refine ⟨fun u hu => ?_, fun u i h1 h2 => K.all u i (hk ▸ h1) (S.back u h2), K.nodup⟩
  obtain ⟨i, c, h1, h2, h3⟩ := K.pend u hu
  obtain ⟨c', h4, h5⟩ := S.there u i c h1 h2
  exact ⟨i, c', hk ▸ h1, h4, h5.trans h3.1, h3.2⟩

/-- Everything that holds of the machine between operations. -/
structure ClInv (s : KState) : Prop where
  r : RInv [] s.toR
  o : KOpen s.mem s.pending

/-- `vm_push` without loss is `vm_push` without closures. -/
def PushSame (s : KState) (r : RcRes KState) (q : RcRes RState) : Prop :=
  match r with
  | .ok s' => q = .ok s'.toR ∧ s'.pending = s.pending ∧ s'.mem.kind = s.mem.kind ∧ Stays s.mem.kind s.mem.heap s'.mem.heap
  | .uaf => q = .uaf
  | .fuel => q = .fuel
  | .bad => q = .bad

theorem push_same {s : KState} {v : RV} (h : (s.push v).lost = false) : PushSame s (s.push v).res (s.toR.push v) := by
  unfold KState.push at h ⊢
  unfold RState.push
  by_cases ht : s.top ≥ 1024
  · rw [if_pos ht, if_pos (show s.toR.top ≥ 1024 from ht)]; exact rfl
  rw [if_neg ht] at h
  rw [if_neg ht, if_neg (show ¬ s.toR.top ≥ 1024 from ht)]
  show PushSame s _ (match s.mem.slots[s.top]? with | none => _ | some old => _)
  rcases eo : s.mem.slots[s.top]? with _ | old <;> rw [eo] at h <;> dsimp only at h ⊢
  · exact rfl
  have h1 := decK_same s.fuel s.mem old (KRes.bind_lost h)
  rw [KRes.bind_res]
  show PushSame s _ ((decRef s.fuel s.mem.heap old).bind _)
  rcases e : (decK s.fuel s.mem old).res with m | _ | _ | _ <;> rw [e] at h1
  · obtain ⟨b1, b2, b3, b4⟩ := h1
    rw [b1]
    show PushSame s ((incRef m.heap v).bind _) ((incRef m.heap v).bind _)
    rcases e2 : incRef m.heap v with h2 | _ | _ | _
    · refine ⟨?_, rfl, b3, b4.trans (incRef_stays _ e2)⟩
      show RcRes.ok _ = RcRes.ok _
      simp only [KState.toR]; rw [b2]
    all_goals exact rfl
  all_goals (rw [show decRef s.fuel s.mem.heap old = _ from h1]; exact rfl)

/-- No use of freed memory, as long as no variable is lost. -/
def KSafe (r : KRes KState) : Prop := r.lost = false → r.res = .bad ∨ ∃ s', r.res = .ok s' ∧ ClInv s'

theorem kpush_safe {s : KState} {v : RV} (K : KOpen s.mem s.pending) (R : Safe [] (s.toR.push v)) : KSafe (s.push v) := by
  intro h
  have p := push_same h
  rcases e : (s.push v).res with s' | _ | _ | _ <;> rw [e] at p
  · obtain ⟨p1, p2, p3, p4⟩ := p
    right
    rcases R with R | ⟨t, et, It⟩
    · rw [p1] at R; cases R
    · rw [p1] at et; cases et
      exact ⟨s', rfl, It, p2 ▸ K.stays p3 p4⟩
  · rcases R with R | ⟨t, et, _⟩
    · rw [show s.toR.push v = _ from p] at R; cases R
    · rw [show s.toR.push v = _ from p] at et; cases et
  · rcases R with R | ⟨t, et, _⟩
    · rw [show s.toR.push v = _ from p] at R; cases R
    · rw [show s.toR.push v = _ from p] at et; cases et
  · exact .inl rfl

theorem KOpen.alloc {m : KMem} {pending : List Nat} (K : KOpen m pending) (fr : m.heap.cell m.heap.next = none) (items : List RV) {k : KKind} (hk : ∀ i, k ≠ .opened i) :
    KOpen (m.alloc items k) pending := by
  refine ⟨fun u hu => ?_, fun u i h1 h2 => ?_, K.nodup⟩
  · obtain ⟨i, c, h1, h2, h3⟩ := K.pend u hu
    have : u ≠ m.heap.next := by rintro rfl; rw [fr] at h2; cases h2
    exact ⟨i, c, by simp only [KMem.alloc, if_neg this]; exact h1, by simp only [KMem.alloc, RHeap.alloc, if_neg this]; exact h2, h3⟩
  · by_cases e : u = m.heap.next
    · simp only [KMem.alloc, if_pos e] at h1; exact absurd h1 (hk i)
    · simp only [KMem.alloc, RHeap.alloc, if_neg e] at h1 h2
      exact K.all u i h1 h2

theorem ClInv.fresh {s : KState} (I : ClInv s) : s.mem.heap.cell s.mem.heap.next = none := I.r.bal.fresh _ (le_refl _)

end Yasl
