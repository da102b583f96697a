import Verif.Spec.Userdata
import Verif.Proofs.RefCount
set_option autoImplicit false
/-! # Proofs about userdata and metatables -/
namespace Yasl

/-- The log is that of the objects that are gone. -/
def Logged (h : RHeap) (l : List Nat) : Prop := l.Nodup ∧ ∀ a, a ∈ l ↔ a < h.next ∧ h.cell a = none

/-- Objects that hold each other. -/
def Ring (C : Nat → Prop) (D : Finset Nat) (h : RHeap) : Prop := ∀ a, C a → a ∉ D ∧ (∃ c, h.cell a = some c) ∧ ∃ b, C b ∧ h.Holds b a

/-- What `decLog` does on top of `decRef`. -/
structure Dead (h h' : RHeap) (l l' : List Nat) : Prop where
  ex : ∃ d : List Nat, l' = l ++ d ∧ d.Nodup ∧ ∀ a, a ∈ d ↔ h.cell a ≠ none ∧ h'.cell a = none

theorem Dead.refl (h : RHeap) (l : List Nat) : Dead h h l l :=
  ⟨[], by simp, by simp, fun a => ⟨fun m => by simp at m, fun ⟨p, q⟩ => absurd q p⟩⟩

theorem Shr.gone {h h' : RHeap} (S : Shr h h') {a : Nat} (e : h.cell a = none) : h'.cell a = none := by
  rcases S.cells a with g | ⟨g, _⟩
  · rw [g, e]
  · unfold RHeap.refsOf at g; rw [e] at g; exact absurd g (by simp)

theorem Dead.trans {h h1 h2 : RHeap} {l l1 l2 : List Nat} (A : Dead h h1 l l1) (B : Dead h1 h2 l1 l2) (S1 : Shr h h1) (S2 : Shr h1 h2) : Dead h h2 l l2 := by
  obtain ⟨d1, rfl, n1, m1⟩ := A.ex
  obtain ⟨d2, rfl, n2, m2⟩ := B.ex
  refine ⟨d1 ++ d2, by rw [List.append_assoc], List.nodup_append'.2 ⟨n1, n2, ?_⟩, fun a => ?_⟩
  · intro a h1' h2'
    exact ((m2 a).1 h2').1 ((m1 a).1 h1').2
  · rw [List.mem_append, m1, m2]
    constructor
    · rintro (⟨p, q⟩ | ⟨p, q⟩)
      · exact ⟨p, S2.gone q⟩
      · exact ⟨fun e => p (S1.gone e), q⟩
    · rintro ⟨p, q⟩
      by_cases e : h1.cell a = none
      · exact .inl ⟨p, e⟩
      · exact .inr ⟨e, q⟩

theorem Dead.logged {h h' : RHeap} {l l' : List Nat} (A : Dead h h' l l') (S : Shr h h') (L : Logged h l) (fr : ∀ a, h.next ≤ a → h.cell a = none) :
    Logged h' l' := by
  obtain ⟨d, rfl, n, m⟩ := A.ex
  refine ⟨List.nodup_append'.2 ⟨L.1, n, fun a h1 h2 => ((m a).1 h2).1 ((L.2 a).1 h1).2⟩, fun a => ?_⟩
  rw [List.mem_append, L.2, m, S.next]
  constructor
  · rintro (⟨p, q⟩ | ⟨p, q⟩)
    · exact ⟨p, S.gone q⟩
    · exact ⟨by by_contra g; exact p (fr a (by omega)), q⟩
  · rintro ⟨p, q⟩
    by_cases e : h.cell a = none
    · exact .inl ⟨p, e⟩
    · exact .inr ⟨e, q⟩

theorem Ring.shr {C : Nat → Prop} {D : Finset Nat} {h h' : RHeap} (G : Ring C D h) (S : Shr h h') (lv : ∀ a, C a → ∃ c, h'.cell a = some c) : Ring C D h' := by
  intro a ca
  obtain ⟨nd, _, b, cb, c, ec, m⟩ := G a ca
  refine ⟨nd, lv a ca, b, cb, ?_⟩
  obtain ⟨c', ec'⟩ := lv b cb
  obtain ⟨c0, e0, ei, _⟩ := S.some_inv ec'
  rw [ec] at e0; cases e0
  exact ⟨c', ec', ei ▸ m⟩

/-- The specification of `decLog` (for induction). -/
def DecSpec (f : Nat) : Prop := ∀ (C : Nat → Prop) (D : Finset Nat) (h : RHeap) (l : List Nat) (v : RV) (R : List RV), Bal D h (v :: R) → Pin D h R →
  (posSet h).card ≤ f → Ring C D h →
  ∃ h' l', decLog f (h, l) v = .ok (h', l') ∧ decRef f h v = .ok h' ∧ Bal D h' R ∧ Shr h h' ∧ Dead h h' l l' ∧ ∀ a, C a → ∃ c, h'.cell a = some c

theorem decLogAll_spec {f : Nat} (IH : DecSpec f) :
    ∀ (vs : List RV) (C : Nat → Prop) (D : Finset Nat) (h : RHeap) (l : List Nat) (R : List RV), Bal D h (vs ++ R) → Pin D h R → (posSet h).card ≤ f → Ring C D h →
      ∃ h' l', decLogAll (decLog f) (h, l) vs = .ok (h', l') ∧ Bal D h' R ∧ Shr h h' ∧ Dead h h' l l' ∧ ∀ a, C a → ∃ c, h'.cell a = some c := by
  intro vs
  induction vs with
  | nil => intro C D h l R B _ _ G; exact ⟨h, l, rfl, B, .refl h, .refl h l, fun a ca => (G a ca).2.1⟩
  | cons v vs ih =>
    intro C D h l R B P F G
    obtain ⟨h1, l1, e1, _, B1, S1, D1, K1⟩ := IH C D h l v (vs ++ R) B (P.mono fun w hw => List.mem_append_right _ hw) F G
    obtain ⟨h2, l2, e2, B2, S2, D2, K2⟩ := ih C D h1 l1 R B1 (P.shr S1) (le_trans (Finset.card_le_card S1.posSet) F) (G.shr S1 K1)
    exact ⟨h2, l2, by rw [decLogAll, e1]; exact e2, B2, S1.trans S2, D1.trans D2 S1 S2, K2⟩

theorem decLog_spec : ∀ f, DecSpec f := by
  intro f
  induction f with
  | zero =>
    intro C D h l v R B P F G
    cases v with
    | none => exact ⟨h, l, by simp [decLog], by simp [decRef], B.congr fun a => by simp [List.count_cons], .refl h, .refl h l, fun a ca => (G a ca).2.1⟩
    | some a =>
      have p := B.mem_pos (List.mem_cons_self (a := some a) (l := R))
      obtain ⟨c, e, _⟩ := refsOf_pos_live p
      have : a ∈ posSet h := by simp [posSet, p, B.live_lt e]
      have := Finset.card_pos.2 ⟨a, this⟩
      omega
  | succ f IH =>
    intro C D h l v R B P F G
    obtain ⟨h', e', B', S'⟩ := decRef_ok (f + 1) D h v R B P F
    cases v with
    | none => exact ⟨h, l, by simp [decLog], by simp [decRef], B.congr fun a => by simp [List.count_cons], .refl h, .refl h l, fun a ca => (G a ca).2.1⟩
    | some a =>
      have p := B.mem_pos (List.mem_cons_self (a := some a) (l := R))
      obtain ⟨c, e, er⟩ := refsOf_pos_live p
      have hs := B.sum a
      rw [er, List.count_cons_self] at hs
      rw [er] at p
      by_cases h1 : c.refs - 1 ≠ 0
      · have q : decRef (f + 1) h (some a) = .ok (h.put a (some { c with refs := c.refs - 1 })) := by
          rw [decRef, e]; dsimp only; rw [if_neg (by omega), if_pos h1]
        rw [q] at e'; cases e'
        refine ⟨_, l, ?_, q, B', S', ?_, fun x cx => ?_⟩
        · rw [decLog, e]; dsimp only; rw [if_neg (by omega), if_pos h1]
        · refine ⟨[], by simp, by simp, fun x => ⟨fun m => by simp at m, fun ⟨p, q⟩ => ?_⟩⟩
          rw [put_cell] at q
          split at q
          · cases q
          · exact absurd q p
        · rw [put_cell]
          split
          · exact ⟨_, rfl⟩
          · exact (G x cx).2.1
      · -- the count reaches 0
        have c1 : c.refs = 1 := by omega
        have na : a ∉ D := by
          intro ha
          rcases P a ha with g | g
          · omega
          · have := List.count_pos_iff.2 g; omega
        have nC : ¬ C a := by
          intro ca
          obtain ⟨_, _, b, cb, cc, ecc, m⟩ := G a ca
          have hb : b ∈ Finset.range h.next \ D := by simp [B.live_lt ecc, (G b cb).1]
          have h2 : h.holds b a ≤ ∑ i ∈ Finset.range h.next \ D, h.holds i a := Finset.single_le_sum (f := fun i => h.holds i a) (fun _ _ => Nat.zero_le _) hb
          have h3 : 0 < h.holds b a := by unfold RHeap.holds; rw [ecc]; exact List.count_pos_iff.2 m
          omega
        have B1 : Bal (insert a D) (h.put a (some { c with refs := 0 })) (c.items ++ R) := by
          have := B.opened e na
          refine this.put_refs e ?_ fun x hx => ?_
          · simp only [List.count_append, List.count_cons_self]; omega
          · simp only [List.count_append]; rw [List.count_cons_of_ne]; simpa using fun hh => hx hh.symm
        have z1 : (h.put a (some { c with refs := 0 })).refsOf a = 0 := by rw [put_refsOf, if_pos rfl]
        have P1 : Pin (insert a D) (h.put a (some { c with refs := 0 })) R := by
          intro b hb
          rcases Finset.mem_insert.1 hb with rfl | hb'
          · exact .inl z1
          · refine (P b hb').imp (fun z => ?_) id
            rw [put_refsOf, if_neg (by rintro rfl; exact na hb')]; exact z
        have F1 : (posSet (h.put a (some { c with refs := 0 }))).card ≤ f := by
          have : posSet (h.put a (some { c with refs := 0 })) ⊂ posSet h := by
            refine Finset.ssubset_iff_subset_ne.2 ⟨fun x hx => ?_, fun he => ?_⟩
            · simp only [posSet, Finset.mem_filter, Finset.mem_range, put_refsOf] at *
              refine ⟨hx.1, ?_⟩
              have := hx.2
              split at this
              · simp at this
              · exact this
            · have ha : a ∈ posSet h := by simp [posSet, er, p, B.live_lt e]
              rw [← he] at ha
              simp [posSet, z1] at ha
          have := Finset.card_lt_card this
          omega
        have G1 : Ring C (insert a D) (h.put a (some { c with refs := 0 })) := by
          intro x cx
          obtain ⟨nd, ⟨cc, ecc⟩, b, cb, cb', eb, m⟩ := G x cx
          have xa : x ≠ a := by rintro rfl; exact nC cx
          have ba : b ≠ a := by rintro rfl; exact nC cb
          exact ⟨by simp [xa, nd], ⟨cc, by rw [put_cell, if_neg xa, ecc]⟩, b, cb, cb', by rw [put_cell, if_neg ba, eb], m⟩
        obtain ⟨h2, l2, e2, B2, S2, D2, K2⟩ := decLogAll_spec IH c.items C (insert a D) _ l R B1 P1 F1 G1
        obtain ⟨h2', e2', _, _⟩ := rcAll_dec (decRef_ok f) c.items (insert a D) _ R B1 P1 F1
        have same : h2' = h2 := by
          have agree : ∀ (vs : List RV) (D : Finset Nat) (h : RHeap) (l : List Nat) (R : List RV), Bal D h (vs ++ R) → Pin D h R → (posSet h).card ≤ f →
              ∀ h' l', decLogAll (decLog f) (h, l) vs = .ok (h', l') → rcAll (decRef f) h vs = .ok h' := by
            intro vs
            induction vs with
            | nil => intro D h l R _ _ _ h' l' e; cases e; rfl
            | cons v vs ih =>
              intro D h l R B P F h' l' e
              obtain ⟨h1, l1, q1, q2, B1, S1, _⟩ := IH (fun _ => False) D h l v (vs ++ R) B (P.mono fun w hw => List.mem_append_right _ hw) F (fun _ hf => hf.elim)
              rw [decLogAll, q1] at e
              rw [rcAll, q2]
              exact ih D h1 l1 R B1 (P.shr S1) (le_trans (Finset.card_le_card S1.posSet) F) h' l' e
          have := agree c.items (insert a D) _ l R B1 P1 F1 h2 l2 e2
          rw [e2'] at this; cases this; rfl
        subst same
        have q : decRef (f + 1) h (some a) = .ok (h2'.put a none) := by
          rw [decRef, e]; dsimp only; rw [if_neg (by omega), if_neg h1, e2']; rfl
        rw [q] at e'; cases e'
        have la : h2'.cell a ≠ none := by rw [S2.zero z1, put_self]; simp
        refine ⟨_, l2 ++ [a], ?_, q, B', S', ?_, fun x cx => ?_⟩
        · rw [decLog, e]; dsimp only; rw [if_neg (by omega), if_neg h1, e2]; rfl
        · obtain ⟨d, rfl, n, m⟩ := D2.ex
          refine ⟨d ++ [a], by rw [List.append_assoc], ?_, fun x => ?_⟩
          · refine List.nodup_append'.2 ⟨n, by simp, fun x hx hy => ?_⟩
            rw [List.mem_singleton] at hy; subst hy
            exact la ((m x).1 hx).2
          · rw [List.mem_append, List.mem_singleton, m]
            by_cases xa : x = a
            · subst xa; simp [put_self, e]
            · rw [put_cell, put_cell, if_neg xa, if_neg xa]; simp [xa]
        · rw [put_cell, if_neg (by rintro rfl; exact nC cx)]; exact K2 x cx

/-- Giving up a reference between operations. -/
theorem decLog_ok {h : RHeap} {v : RV} {R : List RV} (l : List Nat) (B : Bal ∅ h (v :: R)) (L : Logged h l) :
    ∃ h' l', decLog h.next (h, l) v = .ok (h', l') ∧ decRef h.next h v = .ok h' ∧ Bal ∅ h' R ∧ Shr h h' ∧ Logged h' l' := by
  obtain ⟨h', l', e, e', B', S, D, _⟩ := decLog_spec h.next (fun _ => False) ∅ h l v R B (fun a ha => by simp at ha) (posSet_le h) (fun _ hf => hf.elim)
  exact ⟨h', l', e, e', B', S, D.logged S L B.fresh⟩

/-- The same with an object that is being changed. -/
theorem decLog_open {h : RHeap} {v : RV} {R : List RV} {a : Nat} (f : Nat) (hf : h.next = f) (l : List Nat) (B : Bal {a} h (v :: R)) (m : some a ∈ R) (L : Logged h l) :
    ∃ h' l', decLog f (h, l) v = .ok (h', l') ∧ Bal {a} h' R ∧ Shr h h' ∧ Logged h' l' := by
  subst hf
  obtain ⟨h', l', e, e', B', S, D, _⟩ := decLog_spec h.next (fun _ => False) {a} h l v R B (pin_single m) (posSet_le h) (fun _ hf => hf.elim)
  exact ⟨h', l', e, B', S, D.logged S L B.fresh⟩

/-- What holds between operations. -/
structure UInv (s : UState) : Prop where
  bal : Bal ∅ s.heap (s.slots ++ s.roots)
  len : s.slots.length = 1024
  top : s.top ≤ 1024
  nz : NZ s.heap
  log : Logged s.heap s.log
  root0 : s.roots[0]? = some (some 0)
  root1 : s.roots[1]? = some (some 1)

/-- A result that is an error or satisfies the invariant. -/
def USafe (r : RcRes UState) : Prop := r = .bad ∨ ∃ s', r = .ok s' ∧ UInv s'

theorem Logged.grow {h h' : RHeap} {l : List Nat} (L : Logged h l) (G : RGrow h h') : Logged h' l := by
  refine ⟨L.1, fun a => ?_⟩
  rw [L.2, G.next]
  refine and_congr_right fun _ => ?_
  rcases G.cells a with e | ⟨c, r, e, _, e'⟩
  · rw [e]
  · rw [e, e']; simp

theorem Logged.put {h : RHeap} {l : List Nat} (L : Logged h l) {a : Nat} {c c' : Cell} (e : h.cell a = some c) : Logged (h.put a (some c')) l := by
  refine ⟨L.1, fun x => ?_⟩
  rw [L.2]
  refine and_congr_right fun _ => ?_
  rw [put_cell]
  split
  · rename_i ex; subst ex; rw [e]; simp
  · exact Iff.rfl

theorem Logged.alloc {h : RHeap} {l : List Nat} (L : Logged h l) (its : List RV) : Logged (h.alloc its) l := by
  refine ⟨L.1, fun x => ?_⟩
  rw [L.2]
  simp only [RHeap.alloc]
  by_cases ex : x = h.next
  · subst ex; simp
  · rw [if_neg ex]
    refine and_congr_left fun _ => ?_
    omega

theorem upush_ok {s : UState} {v : RV} (B : Bal ∅ s.heap (s.slots ++ s.roots)) (len : s.slots.length = 1024) (lg : Logged s.heap s.log)
    (r0 : s.roots[0]? = some (some 0)) (r1 : s.roots[1]? = some (some 1))
    (nz : ∀ a c, s.heap.cell a = some c → 0 < c.refs ∨ v = some a)
    (lv : ∀ h', (∀ old, s.slots[s.top]? = some old → decRef s.heap.next s.heap old = .ok h') → Bal ∅ h' (s.slots.eraseIdx s.top ++ s.roots) → Shr s.heap h' → ∀ a, v = some a → ∃ c, h'.cell a = some c) :
    USafe (s.push v) := by
  unfold UState.push
  by_cases ht : s.top ≥ 1024
  · left; rw [if_pos ht]
  · rw [if_neg ht]
    have hl : s.top < s.slots.length := by omega
    obtain ⟨old, eo⟩ : ∃ old, s.slots[s.top]? = some old := ⟨s.slots[s.top], List.getElem?_eq_getElem hl⟩
    rw [eo]; dsimp only
    obtain ⟨h1, l1, e1, e1', B1, S1, L1⟩ := decLog_ok (v := old) (R := s.slots.eraseIdx s.top ++ s.roots) s.log
      (B.perm (by simpa using (perm_eraseIdx eo).append_right s.roots)) lg
    obtain ⟨h2, e2, B2, G2⟩ := incRef_ok B1 (lv h1 (fun o ho => by rw [eo] at ho; cases ho; exact e1') B1 S1)
    right
    refine ⟨{ s with heap := h2, log := l1, slots := s.slots.set s.top v, top := s.top + 1 }, by rw [e1]; show (incRef h1 v).bind _ = _; rw [e2]; rfl,
      ⟨?_, ?_, ?_, ?_, L1.grow G2, r0, r1⟩⟩
    · refine B2.perm ?_
      simpa using ((perm_set hl v).symm.append_right s.roots)
    · simpa using len
    · show s.top + 1 ≤ 1024; omega
    · intro a c e
      obtain ⟨c1, f1, _, rfl | p⟩ := G2.some_inv e
      · obtain ⟨c0, f0, _, rfl | p⟩ := S1.some_inv f1
        · rcases nz a _ f0 with p | p
          · exact p
          · have := B2.mem_pos (a := a) (by simp [p])
            obtain ⟨c', g1, g2⟩ := refsOf_pos_live this
            have e : h2.cell a = some _ := e
            rw [e] at g1; cases g1
            rwa [g2] at this
        · exact p
      · exact p

theorem upush_safe {s : UState} (I : UInv s) {v : RV} {t : Nat}
    (lv : ∀ h', (∀ old, s.slots[t]? = some old → decRef s.heap.next s.heap old = .ok h') → Bal ∅ h' (s.slots.eraseIdx t ++ s.roots) → Shr s.heap h' → ∀ a, v = some a → ∃ c, h'.cell a = some c) :
    USafe ({ s with top := t }.push v) :=
  upush_ok (s := { s with top := t }) (v := v) I.bal I.len I.log I.root0 I.root1 (fun a c e => .inl (I.nz a c e)) lv

theorem uobj_inv {s : UState} {i : Nat} {a : Nat} {c : Cell} (e : s.obj i = some (a, c)) : s.slots[i]? = some (some a) ∧ s.heap.cell a = some c := by
  unfold UState.obj at e
  split at e
  · rename_i b eb
    cases h : s.heap.cell b with
    | none => rw [h] at e; cases e
    | some c' => rw [h] at e; simp at e; obtain ⟨rfl, rfl⟩ := e; exact ⟨eb, h⟩
  · cases e

theorem UInv.init : UInv UState.init := by
  refine ⟨⟨fun a => ?_, fun a ha => ?_⟩, List.length_replicate .., by decide, fun a c e => ?_, ⟨List.nodup_nil, fun a => ?_⟩, rfl, rfl⟩
  · have h0 : UState.init.slots.count (some a) = 0 := List.count_eq_zero.2 fun m => by have := (List.mem_replicate.1 m).2; cases this
    have h1 : ∀ i, UState.init.heap.holds i a = 0 := by
      intro i
      simp only [UState.init, RHeap.holds]
      by_cases hi : i < 2
      · rw [if_pos hi]; simp
      · rw [if_neg hi]
    rw [List.count_append, h0, Finset.sum_eq_zero fun i _ => h1 i]
    simp only [UState.init, RHeap.refsOf]
    rcases a with _ | _ | a <;> simp
  · simp only [UState.init] at *; rw [if_neg (by omega)]
  · simp only [UState.init] at e
    split at e
    · cases e; exact Nat.one_pos
    · cases e
  · simp only [UState.init]
    constructor
    · intro m; cases m
    · rintro ⟨p, q⟩; rw [if_pos p] at q; cases q

theorem UInv.root_mem {s : UState} (I : UInv s) (t : Bool) : some t.toNat ∈ s.slots ++ s.roots := by
  refine List.mem_append_right _ ?_
  cases t
  · exact List.mem_of_getElem? I.root0
  · exact List.mem_of_getElem? I.root1

theorem ustep_newUd {s : UState} (I : UInv s) : USafe (s.step .newUd) := by
  simp only [UState.step]
  have B : Bal ∅ (s.heap.alloc [none]) (s.slots ++ s.roots) := by
    have := alloc_bal I.bal [none]
    exact Bal.closed (a := s.heap.next) (c := ⟨0, [none]⟩) (by
      refine Bal.congr (R := s.slots ++ s.roots) (by simpa using this) fun a => by simp) (alloc_self _ _) (by simp)
  refine upush_ok (s := { s with heap := s.heap.alloc [none] }) (v := some s.heap.next) B I.len (I.log.alloc _) I.root0 I.root1 ?_ ?_
  · intro a c e
    by_cases ex : a = s.heap.next
    · exact .inr (by rw [ex])
    · simp only [RHeap.alloc, if_neg ex] at e; exact .inl (I.nz a c e)
  · intro h' _ B' S a ha
    cases ha
    refine ⟨_, (S.zero ?_).trans (alloc_self _ _)⟩
    show (s.heap.alloc [none]).refsOf s.heap.next = 0
    simp [RHeap.refsOf, alloc_self]

theorem ustep_new {s : UState} (I : UInv s) (t : Bool) : USafe (s.step (.new t)) := by
  simp only [UState.step]
  set items : List RV := [some t.toNat] with hi
  have mem : ∀ v, v ∈ items → v ∈ s.slots ++ s.roots := fun v hv => by rw [hi, List.mem_singleton] at hv; subst hv; exact I.root_mem t
  obtain ⟨h1, e1, B1, G1⟩ := incRef_ok (v := some t.toNat) (alloc_bal I.bal items) (fun a ha => by
    cases ha
    obtain ⟨c, e⟩ := I.bal.mem_live (I.root_mem t)
    exact ⟨c, by simp only [RHeap.alloc]; rw [if_neg (Nat.ne_of_lt (I.bal.live_lt e)), e]⟩)
  obtain ⟨r, er, hr⟩ := G1.keep (alloc_self s.heap items)
  have B2 : Bal ∅ h1 (s.slots ++ s.roots) := Bal.closed (a := s.heap.next) (c := ⟨r, items⟩) (by simpa [hi] using B1) er (by simp)
  have fresh0 : ∀ v ∈ s.slots ++ s.roots, v ≠ some s.heap.next := by
    rintro v hv rfl
    obtain ⟨c, e⟩ := I.bal.mem_live hv
    exact absurd (I.bal.live_lt e) (by omega)
  have r0 : h1.refsOf s.heap.next = 0 := by
    rw [B1.sum]
    have hc : (some t.toNat :: (s.slots ++ s.roots)).count (some s.heap.next) = 0 := by
      refine List.count_eq_zero.2 fun hm => ?_
      rcases List.mem_cons.1 hm with hm | hm
      · exact fresh0 _ (I.root_mem t) hm.symm
      · exact fresh0 _ hm rfl
    rw [hc, Nat.zero_add]
    refine Finset.sum_eq_zero fun i hi => ?_
    have hi' : i ≠ s.heap.next := by simp at hi; exact hi.2
    unfold RHeap.holds
    cases ec : h1.cell i with
    | none => rfl
    | some c =>
      dsimp only
      refine List.count_eq_zero.2 fun hm => ?_
      obtain ⟨c0, f0, f1, _⟩ := G1.some_inv ec
      simp only [RHeap.alloc, if_neg hi'] at f0
      obtain ⟨c2, e2⟩ := I.bal.item_live f0 (by simp) (f1 ▸ hm)
      exact absurd (I.bal.live_lt e2) (by omega)
  rw [e1]
  show USafe (UState.push _ _)
  refine upush_ok (s := { s with heap := h1 }) (v := some s.heap.next) B2 I.len ((I.log.alloc items).grow G1) I.root0 I.root1 ?_ ?_
  · intro a c e
    by_cases ex : a = s.heap.next
    · exact .inr (by rw [ex])
    · obtain ⟨c0, f0, _, rfl | p⟩ := G1.some_inv e
      · simp only [RHeap.alloc, if_neg ex] at f0; exact .inl (I.nz a _ f0)
      · exact .inl p
  · intro h' _ B' S a ha
    cases ha
    exact ⟨_, (S.zero r0).trans er⟩

theorem ustep_store {s : UState} (I : UInv s) (i : Nat) : USafe (s.step (.store i)) := by
  simp only [UState.step]
  split
  · split
    · rename_i hi _ _ old v eo ev
      have hl : i < s.slots.length := by have := I.len; have := I.top; omega
      obtain ⟨h1, l1, e1, _, B1, S1, L1⟩ := decLog_ok (v := old) (R := s.slots.eraseIdx i ++ s.roots) s.log
        (I.bal.perm (by simpa using (perm_eraseIdx eo).append_right s.roots)) I.log
      obtain ⟨h2, e2, B2, G2⟩ := incRef_ok B1 (v := v) (fun a ha => B1.mem_live (by subst ha; exact List.mem_append_left _ (mem_eraseIdx_of ev (by omega))))
      right
      refine ⟨{ s with heap := h2, log := l1, slots := s.slots.set i v, top := s.top - 1 }, by rw [e1]; show (incRef h1 v).bind _ = _; rw [e2]; rfl,
        ⟨?_, ?_, ?_, ?_, L1.grow G2, I.root0, I.root1⟩⟩
      · exact B2.perm (by simpa using ((perm_set hl v).symm.append_right s.roots))
      · simpa using I.len
      · show s.top - 1 ≤ 1024; have := I.top; omega
      · exact (I.nz.shr S1).grow G2
    · exact .inl rfl
  · exact .inl rfl

theorem ustep_setMt {s : UState} (I : UInv s) : USafe (s.step .setMt) := by
  simp only [UState.step]
  split
  · split
    · rename_i hi _ _ a c m cm eo em
      obtain ⟨es, ec⟩ := uobj_inv eo
      obtain ⟨es', ec'⟩ := uobj_inv em
      have ma : some a ∈ s.slots ++ s.roots := List.mem_append_left _ (List.mem_of_getElem? es)
      have mm : some m ∈ s.slots ++ s.roots := List.mem_append_left _ (List.mem_of_getElem? es')
      obtain ⟨h1, e1, B1, G1⟩ := incRef_ok I.bal (v := some m) (fun b hb => by cases hb; exact ⟨cm, ec'⟩)
      obtain ⟨r, er, _⟩ := G1.keep ec
      unfold udSetMt
      rw [e1]
      show USafe (RcRes.bind (match h1.cell a with | none => _ | some c => _) _)
      rw [er]; dsimp only
      cases hit : c.items with
      | nil => exact .inl rfl
      | cons old rest =>
        dsimp only
        have B2 : Bal {a} h1 (old :: (rest ++ (some m :: (s.slots ++ s.roots)))) := by
          have := B1.opened er (by simp)
          simpa [hit] using this
        obtain ⟨h2, l2, e2, B3, S2, L2⟩ := decLog_open s.heap.next G1.next s.log B2 (by simp [List.mem_append.1 ma]) (I.log.grow G1)
        rw [e2]
        show USafe (RcRes.bind (match h2.cell a with | none => _ | some c => _) _)
        obtain ⟨c3, ec3⟩ := B3.mem_live (a := a) (by simp [List.mem_append.1 ma])
        obtain ⟨c0, f0, fi, _⟩ := S2.some_inv ec3
        rw [er] at f0; cases f0
        rw [ec3]
        right
        refine ⟨_, rfl, ⟨?_, I.len, by show s.top - 1 ≤ 1024; have := I.top; omega, ((I.nz.grow G1).shr S2).put_items ec3 _, L2.put ec3, I.root0, I.root1⟩⟩
        have fi : c3.items = old :: rest := by rw [← fi, ← hit]
        show Bal ∅ (h2.put a (some { c3 with items := some m :: c3.items.tail })) (s.slots ++ s.roots)
        rw [fi]
        refine Bal.closed (a := a) (c := { c3 with items := some m :: rest }) ?_ put_self (by simp)
        refine (B3.put_items ec3 (by simp) (some m :: rest)).congr fun x => ?_
        simp only [List.count_append, List.count_cons]; omega
    · exact .inl rfl
  · exact .inl rfl

theorem ustep_getMt {s : UState} (I : UInv s) (sg : s.SafeGet) : USafe (s.step .getMt) := by
  simp only [UState.step]
  split
  · split
    · rename_i hi _ a c eo
      obtain ⟨es, ec⟩ := uobj_inv eo
      split
      · rename_i mt rest hit
        refine upush_safe I (t := s.top - 1) fun h' d B' S b hb => ?_
        subst hb
        rcases sg a c es ec with r2 | r2
        · have hr : 0 < h'.refsOf a := by
            have d := d _ es
            have hf : s.heap.next ≠ 0 := by
              have := I.bal.live_lt ec
              omega
            obtain ⟨f, hf⟩ := Nat.exists_eq_succ_of_ne_zero hf
            rw [hf, decRef, ec] at d
            dsimp only at d
            rw [if_neg (by omega), if_pos (by omega)] at d
            cases d
            rw [put_refsOf, if_pos rfl]
            show 0 < c.refs - 1
            omega
          obtain ⟨c', e', _⟩ := refsOf_pos_live hr
          obtain ⟨c0, f0, f1, _⟩ := S.some_inv e'
          rw [ec] at f0; cases f0
          exact B'.item_live e' (by simp) (by rw [← f1, hit]; simp)
        · exact B'.mem_live (List.mem_append_right _ (r2 b (by rw [hit]; rfl)))
      · exact .inl rfl
    · exact .inl rfl
  · exact .inl rfl

theorem ustep_tableSet {s : UState} (I : UInv s) (i : Nat) : USafe (s.step (.tableSet i)) := by
  simp only [UState.step]
  split
  · split
    · rename_i hi _ _ _ a c k v eo ek ev
      obtain ⟨es, ec⟩ := uobj_inv eo
      obtain ⟨h1, e1, B1, G1⟩ := incRef_ok I.bal (v := k) (fun b hb => I.bal.mem_live (by subst hb; exact List.mem_append_left _ (List.mem_of_getElem? ek)))
      obtain ⟨h2, e2, B2, G2⟩ := incRef_ok B1 (v := v) (fun b hb => B1.mem_live (by subst hb; exact List.mem_cons_of_mem _ (List.mem_append_left _ (List.mem_of_getElem? ev))))
      obtain ⟨r1, er1, _⟩ := G1.keep ec
      obtain ⟨r2, er2, _⟩ := G2.keep er1
      rw [e1]; show USafe ((incRef h1 v).bind _); rw [e2]
      show USafe (match h2.cell a with | some c' => _ | none => _)
      rw [er2]
      right
      refine ⟨_, rfl, ⟨?_, I.len, by show s.top - 2 ≤ 1024; have := I.top; omega, ((I.nz.grow G1).grow G2).put_items er2 _, ((I.log.grow G1).grow G2).put er2, I.root0, I.root1⟩⟩
      refine Bal.closed (a := a) (c := { refs := r2, items := c.items ++ [k, v] }) ?_ put_self (by simp)
      refine ((B2.opened er2 (by simp)).put_items er2 (by simp) (c.items ++ [k, v])).congr fun x => ?_
      simp only [List.count_append, List.count_cons, List.count_nil]; omega
    · exact .inl rfl
  · exact .inl rfl

theorem ustep_tableDel {s : UState} (I : UInv s) (i j : Nat) : USafe (s.step (.tableDel i j)) := by
  simp only [UState.step]
  split
  · split
    · rename_i hi _ a c eo
      obtain ⟨es, ec⟩ := uobj_inv eo
      split
      · rename_i _ _ k0 v0 ek ev
        have ma : some a ∈ s.slots ++ s.roots := List.mem_append_left _ (List.mem_of_getElem? es)
        have B0 := I.bal.opened ec (by simp)
        have cnt : ∀ x, c.items.count (some x) = [k0].count (some x) + [v0].count (some x) + ((c.items.set j none).set (j + 1) none).count (some x) := by
          intro x
          have c1 := count_set_add ek none (some x)
          have ev2 : (c.items.set j none)[j + 1]? = some v0 := by rw [List.getElem?_set_ne (by omega)]; exact ev
          have c2 := count_set_add ev2 none (some x)
          have n0 : [(none : RV)].count (some x) = 0 := by simp
          omega
        set its := (c.items.set j none).set (j + 1) none with hits
        have B1 : Bal {a} s.heap (k0 :: (v0 :: (its ++ (s.slots ++ s.roots)))) := by
          refine Bal.congr (R := c.items ++ (s.slots ++ s.roots)) (by simpa using B0) fun x => ?_
          have := cnt x
          simp only [List.count_append, List.count_cons, List.count_nil] at this ⊢; omega
        obtain ⟨h1, l1, e1, B2, S1, L1⟩ := decLog_open s.heap.next rfl s.log B1 (by simp [List.mem_append.1 ma]) I.log
        obtain ⟨h2, l2, e2, B3, S2, L2⟩ := decLog_open s.heap.next S1.next l1 B2 (by simp [List.mem_append.1 ma]) L1
        obtain ⟨c3, ec3⟩ := B3.mem_live (a := a) (by simp [List.mem_append.1 ma])
        rw [e1]; show USafe ((decLog s.heap.next (h1, l1) v0).bind _); rw [e2]
        show USafe (match h2.cell a with | some c' => _ | none => _)
        rw [ec3]
        right
        refine ⟨_, rfl, ⟨?_, I.len, I.top, ((I.nz.shr S1).shr S2).put_items ec3 _, L2.put ec3, I.root0, I.root1⟩⟩
        refine Bal.closed (a := a) (c := { c3 with items := its }) ?_ put_self (by simp)
        simpa using B3.put_items ec3 (by simp) its
      · exact .inl rfl
    · exact .inl rfl
  · exact .inl rfl

theorem ustep_register {s : UState} (I : UInv s) : USafe (s.step .register) := by
  simp only [UState.step]
  split
  · split
    · rename_i hi _ v ev
      obtain ⟨h1, e1, B1, G1⟩ := incRef_ok I.bal (v := v) (fun b hb => I.bal.mem_live (by subst hb; exact List.mem_append_left _ (List.mem_of_getElem? ev)))
      rw [e1]
      right
      refine ⟨_, rfl, ⟨?_, I.len, by show s.top - 1 ≤ 1024; have := I.top; omega, I.nz.grow G1, I.log.grow G1, ?_, ?_⟩⟩
      · refine B1.congr fun x => ?_
        simp only [List.count_append, List.count_cons, List.count_nil]; omega
      · show (s.roots ++ [v])[0]? = _
        rw [List.getElem?_append_left (List.getElem?_eq_some_iff.1 I.root0).1]; exact I.root0
      · show (s.roots ++ [v])[1]? = _
        rw [List.getElem?_append_left (List.getElem?_eq_some_iff.1 I.root1).1]; exact I.root1
    · exact .inl rfl
  · exact .inl rfl

theorem ustep_replace {s : UState} (I : UInv s) (j : Nat) : USafe (s.step (.replace j)) := by
  simp only [UState.step]
  split
  · rename_i hi
    split
    · rename_i _ _ old v eo ev
      obtain ⟨h1, e1, B1, G1⟩ := incRef_ok I.bal (v := v) (fun b hb => I.bal.mem_live (by subst hb; exact List.mem_append_left _ (List.mem_of_getElem? ev)))
      have hs := fun x => count_set_add eo v (some x)
      obtain ⟨h2, l2, e2, _, B2, S2, L2⟩ := decLog_ok (v := old) (R := s.slots ++ s.roots.set j v) s.log
        (B1.congr fun x => by
          have := hs x
          simp only [List.count_append, List.count_cons, List.count_nil] at this ⊢; omega) (I.log.grow G1)
      rw [G1.next] at e2
      rw [e1]; show USafe ((decLog s.heap.next (h1, s.log) old).bind _); rw [e2]
      right
      refine ⟨_, rfl, ⟨B2, I.len, by show s.top - 1 ≤ 1024; have := I.top; omega, (I.nz.grow G1).shr S2, L2, ?_, ?_⟩⟩
      · show (s.roots.set j v)[0]? = _
        rw [List.getElem?_set_ne (by omega)]; exact I.root0
      · show (s.roots.set j v)[1]? = _
        rw [List.getElem?_set_ne (by omega)]; exact I.root1
    · exact .inl rfl
  · exact .inl rfl

theorem ustep_safe {s : UState} (I : UInv s) (op : UOp) (sg : op = .getMt → s.SafeGet) : USafe (s.step op) := by
  cases op with
  | plain => exact upush_safe I (t := s.top) (fun _ _ _ _ a ha => by cases ha)
  | newUd => exact ustep_newUd I
  | new t => exact ustep_new I t
  | load i =>
    simp only [UState.step]
    split
    · split
      · rename_i hi _ v ev
        refine upush_safe I (t := s.top) fun h' _ B' _ a ha => B'.mem_live ?_
        subst ha
        exact List.mem_append_left _ (mem_eraseIdx_of ev (by omega))
      · exact .inl rfl
    · exact .inl rfl
  | pop =>
    simp only [UState.step]
    split
    · exact .inl rfl
    · exact .inr ⟨_, rfl, ⟨I.bal, I.len, by show s.top - 1 ≤ 1024; have := I.top; omega, I.nz, I.log, I.root0, I.root1⟩⟩
  | store i => exact ustep_store I i
  | setMt => exact ustep_setMt I
  | getMt => exact ustep_getMt I (sg rfl)
  | tableSet i => exact ustep_tableSet I i
  | tableDel i j => exact ustep_tableDel I i j
  | register => exact ustep_register I
  | replace j => exact ustep_replace I j
  | loadRoot j =>
    simp only [UState.step]
    split
    · rename_i v ev
      refine upush_safe I (t := s.top) fun h' _ B' _ a ha => B'.mem_live ?_
      subst ha
      exact List.mem_append_right _ (List.mem_of_getElem? ev)
    · exact .inl rfl

theorem UState.Hist.inv {s : UState} (H : s.Hist) : UInv s := by
  induction H with
  | init => exact UInv.init
  | step op _ sg e ih =>
    rcases ustep_safe ih op sg with g | ⟨s2, g, I⟩
    · rw [g] at e; cases e
    · rw [g] at e; cases e; exact I

theorem UInv.reach_live {s : UState} (I : UInv s) {a : Nat} (r : s.Reach a) : s.heap.Live a := by
  induction r with
  | slot m => exact I.bal.mem_live (List.mem_append_left _ m)
  | root m => exact I.bal.mem_live (List.mem_append_right _ m)
  | held _ hh _ =>
    obtain ⟨c, ec, m⟩ := hh
    exact I.bal.item_live ec (by simp) m

end Yasl
