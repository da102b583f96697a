import Verif.Model.Nodes
import Mathlib.Data.List.Nodup
import Mathlib.Data.List.Range
import Mathlib.Data.List.Perm.Subperm
import Mathlib.Tactic.ByContra
set_option autoImplicit false
/-!
# C115 — the memory of the syntax tree

What the parser does with nodes is given by rules (`Allowed`), which can be read off compiler/parser.c: which constructors get a name, which names are shared, which types are changed into
which, which nodes are extended.
-/
namespace Yasl

/-- The constructors that are given a name of their own (compiler/parser.c:361-414, 483, 492, 633-640, 977, 1035, 1101, 1121); functions without a name get the null pointer. -/
def ownNames : List NType := [.var, .let_, .const_, .letIter, .str, .fnDecl]

/-- The constructors that are given the name of another node (compiler/parser.c:418, 788, 808, 908). -/
def sharedNames : List NType := [.assign, .mcall]

/-- The changes of types (compiler/parser.c:321, 326, 544-706, 929; compiler/middleend.c:67-79; compiler/compiler.c:347). -/
def typeChanges : List (NType × NType) := [
  (.var, .let_), (.var, .const_), (.var, .str), (.var, .patStr), (.str, .patStr), (.int, .patInt), (.float, .patFl), (.bool, .patBool), (.let_, .patLet), (.const_, .patConst),
  (.undef, .patBoolType), (.undef, .patIntType), (.undef, .patFloatType), (.undef, .patStrType), (.undef, .patLsType), (.undef, .patTableType), (.undef, .patAny), (.undef, .patUndef),
  (.body, .patTable), (.patTable, .patVTable), (.body, .patLs), (.patLs, .patVLs), (.binOp, .patAlt), (.exprStmt, .echo),
  (.binOp, .float), (.binOp, .int), (.binOp, .bool), (.unOp, .float), (.unOp, .int), (.unOp, .bool)]

/-- The node `p` has `k` among its children. -/
def TreeMem.Kid (s : TreeMem) (p k : Nat) : Prop := ∃ n, s.node p = some n ∧ some k ∈ n.kids

/-- There is a node at `p`. -/
def TreeMem.Live (s : TreeMem) (p : Nat) : Prop := ∃ n, s.node p = some n

/-- What the parser does with the nodes it has. -/
def Allowed (s : TreeMem) : TreeOp → Prop
  | .new t name kids => (∀ k, some k ∈ kids → s.Live k) ∧
    match name with
    | .null => t ∉ sharedNames
    | .fresh => t ∈ ownNames
    | .of p => t ∈ sharedNames ∧ ∃ n, s.node p = some n
  | .append p kid _ slot => s.Live p ∧ (∀ k, kid = some k → s.Live k ∧ k ≠ p) ∧
    match slot with
    -- the block is in a variable only
    | none => ∀ a, ¬s.Kid a p
    -- the block is the first child of `r`, and of no other node
    | some r => (∀ a, s.Kid a p → a = r) ∧ r ≠ p ∧ ∃ m x, s.node r = some m ∧ m.kids = some p :: x ∧ some p ∉ x
  | .retype p t => ∃ n, s.node p = some n ∧ (n.type, t) ∈ typeChanges
  | .setkid p _ q => s.Live p ∧ s.Live q

/-- The states that are reached by the parser. -/
inductive TreeReads : TreeMem → Prop
  | new : TreeReads TreeMem.new
  | step {s s' : TreeMem} {op : TreeOp} : TreeReads s → Allowed s op → s.step op = some (.ok s') → TreeReads s'

/-- How many nodes there are. -/
def TreeMem.count (s : TreeMem) : Nat := ((List.range s.nodes.length).filter fun p => (s.node p).isSome).length

/-! ## Proofs -/

/-- The list `L` is linked by `next`. -/
def Seg (s : TreeMem) : List Nat → Prop
  | [] => True
  | a :: l => (∃ n, s.node a = some n ∧ n.next = l.head?) ∧ Seg s l

/-- Apart from `next`. -/
def PNode.core (n : PNode) : NType × Option Nat × List (Option Nat) := (n.type, n.name, n.kids)

def TreeMem.core (s : TreeMem) (p : Nat) : Option (NType × Option Nat × List (Option Nat)) := (s.node p).map PNode.core

/-- `L` is the list of the parser. -/
structure NList (s : TreeMem) (L : List Nat) : Prop where
  head : s.head = L.head?
  tail : L ≠ [] → s.tail = L.getLast?
  nodup : L.Nodup
  seg : Seg s L

theorem TreeMem.node_write {s : TreeMem} {p q : Nat} {n : PNode} (hp : p < s.nodes.length) : (s.write p n).node q = if q = p then some n else s.node q := by
  unfold TreeMem.write TreeMem.node
  by_cases h : q = p
  · subst h; simp [hp]
  · rw [if_neg h, List.getElem?_set_ne (Ne.symm h)]

theorem TreeMem.node_lt {s : TreeMem} {p : Nat} {n : PNode} (h : s.node p = some n) : p < s.nodes.length := by
  unfold TreeMem.node at h
  by_contra hc
  rw [List.getElem?_eq_none (by omega)] at h
  cases h

theorem Seg.congr {s s' : TreeMem} : ∀ {L : List Nat}, (∀ a ∈ L, s'.node a = s.node a) → Seg s L → Seg s' L
  | [], _, _ => trivial
  | a :: l, h, ⟨⟨n, e1, e2⟩, h2⟩ => ⟨⟨n, by rw [h a (by simp)]; exact e1, e2⟩, Seg.congr (fun b hb => h b (by simp [hb])) h2⟩

theorem Seg.live {s : TreeMem} : ∀ {L : List Nat}, Seg s L → ∀ a ∈ L, s.Live a
  | _ :: _, ⟨⟨n, e1, _⟩, h2⟩, b, hb => by
    rcases List.mem_cons.1 hb with rfl | hb
    · exact ⟨n, e1⟩
    · exact h2.live b hb

/-- The last pointer is changed. -/
theorem Seg.snoc {s : TreeMem} {p : Nat} {np : PNode} (hp : s.node p = some np) (hn : np.next = none) : ∀ {L : List Nat} {t : Nat} {n : PNode}, L.getLast? = some t → s.node t = some n →
    L.Nodup → p ∉ L → Seg s L → Seg (s.write t { n with next := some p }) (L ++ [p])
  | [a], t, n, ht, e, _, hpl, _ => by
    simp only [List.getLast?_singleton, Option.some.injEq] at ht
    subst ht
    have hlt := TreeMem.node_lt e
    refine ⟨⟨_, by rw [TreeMem.node_write hlt, if_pos rfl], rfl⟩, ⟨np, ?_, hn⟩, trivial⟩
    rw [TreeMem.node_write hlt, if_neg (by simpa using hpl), hp]
  | a :: b :: l, t, n, ht, e, hnd, hpl, ⟨⟨m, e1, e2⟩, h2⟩ => by
    have ht' : (b :: l).getLast? = some t := by rw [← ht, List.getLast?_cons_cons]
    have hne : a ≠ t := by
      rintro rfl
      exact (List.nodup_cons.1 hnd).1 (List.mem_of_getLast? ht')
    refine ⟨⟨m, ?_, by rw [e2]; rfl⟩, Seg.snoc hp hn ht' e (List.nodup_cons.1 hnd).2 (fun h => hpl (by simp [h])) h2⟩
    rw [TreeMem.node_write (TreeMem.node_lt e), if_neg hne, e1]

theorem TreeMem.core_write {s : TreeMem} {p : Nat} {n m : PNode} (hp : s.node p = some m) (hc : n.core = m.core) (q : Nat) : (s.write p n).core q = s.core q := by
  unfold TreeMem.core
  rw [TreeMem.node_write (TreeMem.node_lt hp)]
  by_cases h : q = p
  · subst h; rw [if_pos rfl, hp, Option.map_some, Option.map_some, hc]
  · rw [if_neg h]

/-- `parser_register_node`. -/
theorem register_ok {s : TreeMem} {L : List Nat} (h : NList s L) {p : Nat} {n : PNode} (hp : s.node p = some n) (hn : n.next = none) (hpl : p ∉ L) :
    ∃ s', s.register p = .ok s' ∧ NList s' (L ++ [p]) ∧ (∀ q, s'.core q = s.core q) ∧ s'.strs = s.strs ∧ s'.nodes.length = s.nodes.length := by
  rw [TreeMem.register]
  cases L with
  | nil =>
    have hh := h.head
    simp only [List.head?_nil] at hh
    rw [hh]
    exact ⟨_, rfl, ⟨rfl, fun _ => rfl, by simp, ⟨n, hp, hn⟩, trivial⟩, fun _ => rfl, rfl, rfl⟩
  | cons a l =>
    have hh := h.head
    simp only [List.head?_cons] at hh
    have ht := h.tail (by simp)
    obtain ⟨t, ht'⟩ : ∃ t, (a :: l).getLast? = some t := ⟨_, List.getLast?_eq_some_getLast (by simp)⟩
    rw [ht'] at ht
    obtain ⟨m, hm⟩ := h.seg.live t (List.mem_of_getLast? ht')
    simp only [hh, ht, hm]
    refine ⟨_, rfl, ⟨?_, ?_, ?_, ?_⟩, fun q => ?_, rfl, by simp [TreeMem.write]⟩
    · exact hh
    · intro _; rw [List.getLast?_concat]
    · rw [List.nodup_append]; exact ⟨h.nodup, by simp, fun x hx y hy => by simp only [List.mem_singleton] at hy; rintro rfl; exact hpl (hy ▸ hx)⟩
    · exact Seg.congr (s := s.write t { m with next := some p }) (fun _ _ => rfl) (Seg.snoc hp hn ht' hm h.nodup hpl h.seg)
    · exact TreeMem.core_write (n := { m with next := some p }) hm rfl q

theorem unlink_ok {p : Nat} {s : TreeMem} : ∀ (M : List Nat) (f prev : Nat), M.length < f → Seg s (prev :: M) → (prev :: M).Nodup → p ∈ M →
    ∃ s' x A B, TreeMem.unlink p f s prev M.head? = some (.ok s') ∧ prev :: M = A ++ x :: p :: B ∧ Seg s' (A ++ x :: B) ∧ (∀ q, s'.core q = s.core q) ∧
      (∃ n, s'.node p = some n ∧ n.next = none) ∧ (∀ q, q ≠ x → q ≠ p → s'.node q = s.node q) ∧ s'.strs = s.strs ∧ s'.nodes.length = s.nodes.length ∧ s'.head = s.head ∧
      s'.tail = if s.tail = some p then some x else s.tail
  | [], _, _, _, _, _, h => by simp at h
  | c :: r, 0, _, hf, _, _, _ => by omega
  | c :: r, f + 1, prev, hf, ⟨⟨m, m1, m2⟩, ⟨n, n1, n2⟩, hs⟩, hnd, hp => by
    rw [List.head?_cons, TreeMem.unlink, n1]
    dsimp only
    have hnd1 := List.nodup_cons.1 hnd
    have hnd2 := List.nodup_cons.1 hnd1.2
    by_cases hc : c = p
    · subst hc
      rw [if_pos rfl, m1]
      have hpc : prev ≠ c := fun e => hnd1.1 (by simp [e])
      have l1 := TreeMem.node_lt m1
      have l2 : c < (s.write prev { m with next := n.next }).nodes.length := by simp only [TreeMem.write, List.length_set]; exact TreeMem.node_lt n1
      have n1' : (s.write prev { m with next := n.next }).node c = some n := by rw [TreeMem.node_write l1, if_neg (Ne.symm hpc), n1]
      refine ⟨_, prev, [], r, rfl, rfl, ⟨⟨{ m with next := n.next }, ?_, n2⟩, ?_⟩, ?_, ⟨{ n with next := none }, ?_, rfl⟩, ?_, rfl, by simp [TreeMem.write], rfl, rfl⟩
      · refine (TreeMem.node_write l2).trans ?_
        rw [if_neg hpc, TreeMem.node_write l1, if_pos rfl]
      · refine hs.congr fun a ha => (TreeMem.node_write l2).trans ?_
        have h1 : a ≠ c := fun e => hnd2.1 (e ▸ ha)
        have h2 : a ≠ prev := fun e => hnd1.1 (by rw [← e]; simp [ha])
        rw [if_neg h1, TreeMem.node_write l1, if_neg h2]
      · intro q
        refine (TreeMem.core_write (n := { n with next := none }) n1' rfl q).trans (TreeMem.core_write (n := { m with next := n.next }) m1 rfl q)
      · refine (TreeMem.node_write l2).trans ?_
        rw [if_pos rfl]
      · intro q h1 h2
        refine (TreeMem.node_write l2).trans ?_
        rw [if_neg h2, TreeMem.node_write l1, if_neg h1]
    · rw [if_neg hc, n2]
      simp only [List.length_cons] at hf
      obtain ⟨s', x, A, B, e1, e2, e3, e4, e5, e6, e7⟩ := unlink_ok r f c (by omega) ⟨⟨n, n1, n2⟩, hs⟩ hnd1.2 (by
        rcases List.mem_cons.1 hp with h | h
        · exact (hc h.symm).elim
        · exact h)
      refine ⟨s', x, prev :: A, B, e1, by rw [e2]; rfl, ⟨⟨m, ?_, ?_⟩, e3⟩, e4, e5, e6, e7⟩
      · rw [e6 prev ?_ ?_, m1]
        · rintro rfl
          exact hnd1.1 (by rw [e2]; simp)
        · rintro rfl
          exact hnd1.1 (by rw [e2]; simp)
      · rw [m2, e2]
        cases A <;> rfl

theorem NList.length_le {s : TreeMem} {L : List Nat} (h : NList s L) : L.length ≤ s.nodes.length := by
  have hsub : L ⊆ List.range s.nodes.length := fun a ha => by
    obtain ⟨n, e⟩ := h.seg.live a ha
    exact List.mem_range.2 (TreeMem.node_lt e)
  have := (List.subperm_of_subset h.nodup hsub).length_le
  rwa [List.length_range] at this

/-- `parser_unregister_node`. -/
theorem unregister_ok {s : TreeMem} {L : List Nat} (h : NList s L) {p : Nat} (hp : p ∈ L) :
    ∃ s' L', s.unregister p = some (.ok s') ∧ NList s' L' ∧ (∀ a, a ∈ L' ↔ a ∈ L ∧ a ≠ p) ∧ (∀ q, s'.core q = s.core q) ∧ (∃ n, s'.node p = some n ∧ n.next = none) ∧
      s'.strs = s.strs ∧ s'.nodes.length = s.nodes.length := by
  have hf := h.length_le
  obtain ⟨a, l, rfl⟩ : ∃ a l, L = a :: l := by cases L with
    | nil => simp at hp
    | cons a l => exact ⟨a, l, rfl⟩
  have hh := h.head
  rw [List.head?_cons] at hh
  obtain ⟨⟨n, n1, n2⟩, hs⟩ := h.seg
  have hnd := List.nodup_cons.1 h.nodup
  simp only [TreeMem.unregister, hh, n1]
  by_cases hap : a = p
  · subst hap
    rw [if_pos rfl]
    refine ⟨_, l, rfl, ⟨n2, fun hl => ?_, hnd.2, ?_⟩, fun b => ?_, fun q => ?_, ⟨{ n with next := none }, ?_, rfl⟩, rfl, by simp [TreeMem.write]⟩
    · refine (h.tail (by simp)).trans ?_
      cases l with
      | nil => exact (hl rfl).elim
      | cons b l => rw [List.getLast?_cons_cons]
    · refine Seg.congr (fun b hb => ?_) hs
      refine (TreeMem.node_write (TreeMem.node_lt n1)).trans ?_
      rw [if_neg fun e : b = a => hnd.1 (e ▸ hb)]
    · constructor
      · exact fun hb => ⟨by simp [hb], fun e => hnd.1 (e ▸ hb)⟩
      · rintro ⟨hb, hne⟩
        rcases List.mem_cons.1 hb with h | h
        · exact (hne h).elim
        · exact h
    · exact TreeMem.core_write (n := { n with next := none }) n1 rfl q
    · refine (TreeMem.node_write (TreeMem.node_lt n1)).trans ?_
      rw [if_pos rfl]
  · rw [if_neg hap, n2]
    have hpl : p ∈ l := by
      rcases List.mem_cons.1 hp with h | h
      · exact (hap h.symm).elim
      · exact h
    simp only [List.length_cons] at hf
    obtain ⟨s', x, A, B, e1, e2, e3, e4, e5, -, e7, e8, e9, e10⟩ := unlink_ok l s.nodes.length a (by omega) ⟨⟨n, n1, n2⟩, hs⟩ h.nodup hpl
    have hnd' := h.nodup
    rw [e2] at hnd'
    have hmem : ∀ b, b ∈ A ++ x :: B ↔ b ∈ a :: l ∧ b ≠ p := by
      intro b
      rw [e2]
      constructor
      · intro hb
        refine ⟨by simp only [List.mem_append, List.mem_cons] at hb ⊢; tauto, ?_⟩
        rintro rfl
        rw [List.nodup_append, List.nodup_cons, List.nodup_cons] at hnd'
        simp only [List.mem_append, List.mem_cons] at hb
        rcases hb with hb | rfl | hb
        · exact hnd'.2.2 b hb b (by simp) rfl
        · exact hnd'.2.1.1 (by simp)
        · exact hnd'.2.1.2.1 hb
      · rintro ⟨hb, hne⟩
        simp only [List.mem_append, List.mem_cons] at hb ⊢
        tauto
    refine ⟨s', A ++ x :: B, e1, ⟨?_, fun _ => ?_, ?_, e3⟩, hmem, e4, e5, e7, e8⟩
    · rw [e9, hh]
      have : (a :: l).head? = (A ++ x :: p :: B).head? := by rw [e2]
      rw [List.head?_cons] at this
      rw [this]
      cases A <;> rfl
    · rw [e10]
      have ht := h.tail (by simp)
      rw [e2] at ht
      rw [ht]
      cases B with
      | nil => simp
      | cons b B =>
        have e : (A ++ x :: p :: b :: B).getLast? = (A ++ x :: b :: B).getLast? := by
          rw [List.getLast?_append, List.getLast?_append, List.getLast?_cons_cons, List.getLast?_cons_cons, List.getLast?_cons_cons]
        rw [e]
        have hne : (A ++ x :: b :: B).getLast? ≠ some p := fun hc => ((hmem p).1 (List.mem_of_getLast? hc)).2 rfl
        rw [if_neg hne]
    · have : (A ++ x :: B).Sublist (A ++ x :: p :: B) := List.Sublist.append_left (List.Sublist.cons_cons _ (List.sublist_cons_self _ _)) _
      exact hnd'.sublist this

abbrev Core := NType × Option Nat × List (Option Nat)

/-- The node `a` frees the name `i`. -/
def Owns (c : Nat → Option Core) (a i : Nat) : Prop := ∃ t ks, c a = some (t, some i, ks) ∧ freesName t = true

/-- Children are there; every name is there and is freed by one node. -/
structure CInv (c : Nat → Option Core) (strs : List Bool) : Prop where
  kids : ∀ a t x ks, c a = some (t, x, ks) → ∀ k, some k ∈ ks → c k ≠ none
  bound : ∀ a i, Owns c a i → i < strs.length
  unique : ∀ a b i, Owns c a i → Owns c b i → a = b
  owned : ∀ i, i < strs.length → strs[i]? = some true ∧ ∃ a, Owns c a i

theorem mem_set_kids {x : List (Option Nat)} {i : Nat} {q : Nat} {k : Nat} (h : some k ∈ x.set i (some q)) : some k ∈ x ∨ k = q := by
  rcases List.mem_or_eq_of_mem_set h with h | h
  · exact .inl h
  · exact .inr (by simpa using h)

/-- A node with a new number. -/
theorem CInv.new {c c' : Nat → Option Core} {strs : List Bool} (h : CInv c strs) {q : Nat} (hq : c q = none) {t : NType} {x : Option Nat} {ks : List (Option Nat)}
    (hc : ∀ a, c' a = if a = q then some (t, x, ks) else c a) (hk : ∀ k, some k ∈ ks → c k ≠ none) (hx : freesName t = true → x = none) : CInv c' strs := by
  have own : ∀ a i, Owns c' a i ↔ Owns c a i := by
    intro a i
    unfold Owns
    rw [hc]
    by_cases ha : a = q
    · subst ha
      rw [if_pos rfl, hq]
      constructor
      · rintro ⟨t', ks', e1, e2⟩
        cases e1
        cases hx e2
      · rintro ⟨_, _, e, _⟩; cases e
    · rw [if_neg ha]
  refine ⟨fun a t' x' ks' e k hm => ?_, fun a i e => h.bound a i ((own a i).1 e), fun a b i e1 e2 => h.unique a b i ((own a i).1 e1) ((own b i).1 e2),
    fun i hi => ⟨(h.owned i hi).1, (h.owned i hi).2.imp fun a => (own a i).2⟩⟩
  have hck : c k ≠ none := by
    rw [hc] at e
    by_cases ha : a = q
    · rw [if_pos ha] at e; cases e; exact hk k hm
    · rw [if_neg ha] at e; exact h.kids a _ _ _ e k hm
  rw [hc]
  by_cases hkq : k = q
  · rw [if_pos hkq]; simp
  · rw [if_neg hkq]; exact hck

/-- The same with a name of its own. -/
theorem CInv.newNamed {c c' : Nat → Option Core} {strs : List Bool} (h : CInv c strs) {q : Nat} (hq : c q = none) {t : NType} {ks : List (Option Nat)}
    (hc : ∀ a, c' a = if a = q then some (t, some strs.length, ks) else c a) (hk : ∀ k, some k ∈ ks → c k ≠ none) (ht : freesName t = true) : CInv c' (strs ++ [true]) := by
  have own : ∀ a i, Owns c' a i ↔ Owns c a i ∨ (a = q ∧ i = strs.length) := by
    intro a i
    unfold Owns
    rw [hc]
    by_cases ha : a = q
    · subst ha
      rw [if_pos rfl, hq]
      constructor
      · rintro ⟨t', ks', e1, e2⟩
        cases e1
        exact .inr ⟨rfl, rfl⟩
      · rintro (⟨_, _, e, _⟩ | ⟨_, rfl⟩)
        · cases e
        · exact ⟨t, ks, rfl, ht⟩
    · rw [if_neg ha]
      exact ⟨.inl, fun e => e.resolve_right fun e => ha e.1⟩
  refine ⟨fun a t' x' ks' e k hm => ?_, fun a i e => ?_, fun a b i e1 e2 => ?_, fun i hi => ?_⟩
  · have hck : c k ≠ none := by
      rw [hc] at e
      by_cases ha : a = q
      · rw [if_pos ha] at e; cases e; exact hk k hm
      · rw [if_neg ha] at e; exact h.kids a _ _ _ e k hm
    rw [hc]
    by_cases hkq : k = q
    · rw [if_pos hkq]; simp
    · rw [if_neg hkq]; exact hck
  · rw [List.length_append, List.length_singleton]
    rcases (own a i).1 e with e | e
    · have := h.bound a i e; omega
    · omega
  · rcases (own a i).1 e1 with e1 | e1 <;> rcases (own b i).1 e2 with e2 | e2
    · exact h.unique a b i e1 e2
    · have := h.bound a i e1; omega
    · have := h.bound b i e2; omega
    · rw [e1.1, e2.1]
  · rw [List.length_append, List.length_singleton] at hi
    by_cases hl : i < strs.length
    · obtain ⟨h1, a, h2⟩ := h.owned i hl
      exact ⟨by rw [List.getElem?_append_left hl, h1], a, (own a i).2 (.inl h2)⟩
    · have : i = strs.length := by omega
      subst this
      exact ⟨by simp, q, (own q _).2 (.inr ⟨rfl, rfl⟩)⟩

/-- A node is changed, but neither its name nor whether this is freed. -/
theorem CInv.change {c c' : Nat → Option Core} {strs : List Bool} (h : CInv c strs) {p : Nat} {t t' : NType} {x : Option Nat} {ks ks' : List (Option Nat)} (hp : c p = some (t, x, ks))
    (hc : ∀ a, c' a = if a = p then some (t', x, ks') else c a) (hk : ∀ k, some k ∈ ks' → c k ≠ none) (ht : freesName t' = freesName t) : CInv c' strs := by
  have own : ∀ a i, Owns c' a i ↔ Owns c a i := by
    intro a i
    unfold Owns
    rw [hc]
    by_cases ha : a = p
    · subst ha
      rw [if_pos rfl, hp]
      constructor
      · rintro ⟨_, _, e1, e2⟩
        cases e1
        exact ⟨t, ks, rfl, ht ▸ e2⟩
      · rintro ⟨_, _, e1, e2⟩
        cases e1
        exact ⟨t', ks', rfl, ht.trans e2⟩
    · rw [if_neg ha]
  refine ⟨fun a t' x' ks' e k hm => ?_, fun a i e => h.bound a i ((own a i).1 e), fun a b i e1 e2 => h.unique a b i ((own a i).1 e1) ((own b i).1 e2),
    fun i hi => ⟨(h.owned i hi).1, (h.owned i hi).2.imp fun a => (own a i).2⟩⟩
  have hck : c k ≠ none := by
    rw [hc] at e
    by_cases ha : a = p
    · rw [if_pos ha] at e; cases e; exact hk k hm
    · rw [if_neg ha] at e; exact h.kids a _ _ _ e k hm
  rw [hc]
  by_cases hkq : k = p
  · rw [if_pos hkq]; simp
  · rw [if_neg hkq]; exact hck

/-- A node is moved from `p` to `q`, and the pointer to it in `r` is changed. -/
theorem CInv.move {c c' : Nat → Option Core} {strs : List Bool} (h : CInv c strs) {p q : Nat} {t : NType} {x : Option Nat} {ks ks' : List (Option Nat)} (hp : c p = some (t, x, ks))
    (hq : c q = none) (hk : ∀ k, some k ∈ ks' → c k ≠ none ∧ k ≠ p)
    (hc1 : c' p = none) (hc2 : c' q = some (t, x, ks')) (hc3 : ∀ a, a ≠ p → a ≠ q → ∀ t x ks, c a = some (t, x, ks) → ∃ ks', c' a = some (t, x, ks') ∧
      ∀ k, some k ∈ ks' → (some k ∈ ks ∧ k ≠ p) ∨ k = q) (hc4 : ∀ a, a ≠ p → a ≠ q → c a = none → c' a = none) : CInv c' strs := by
  have hpq : p ≠ q := by rintro rfl; rw [hp] at hq; cases hq
  have own1 : ∀ a i, Owns c' a i → (a ≠ p ∧ a ≠ q ∧ Owns c a i) ∨ (a = q ∧ Owns c p i) := by
    rintro a i ⟨t1, ks1, e1, e2⟩
    by_cases ha : a = p
    · subst ha; rw [hc1] at e1; cases e1
    · by_cases hb : a = q
      · subst hb; rw [hc2] at e1; cases e1; exact .inr ⟨rfl, t, ks, hp, e2⟩
      · refine .inl ⟨ha, hb, ?_⟩
        cases hca : c a with
        | none => rw [hc4 a ha hb hca] at e1; cases e1
        | some y =>
          obtain ⟨t2, x2, ks2⟩ := y
          obtain ⟨ks3, e3, -⟩ := hc3 a ha hb t2 x2 ks2 hca
          rw [e3] at e1
          cases e1
          exact ⟨_, _, hca, e2⟩
  have own2 : ∀ a i, Owns c a i → ∃ b, Owns c' b i := by
    rintro a i ⟨t1, ks1, e1, e2⟩
    by_cases ha : a = p
    · subst ha; rw [hp] at e1; cases e1; exact ⟨q, t, ks', hc2, e2⟩
    · have hb : a ≠ q := by rintro rfl; rw [hq] at e1; cases e1
      obtain ⟨ks3, e3, -⟩ := hc3 a ha hb _ _ _ e1
      exact ⟨a, _, _, e3, e2⟩
  have keep : ∀ k, c k ≠ none → k ≠ p → c' k ≠ none := by
    intro k h1 h2
    by_cases hb : k = q
    · subst hb; exact (h1 hq).elim
    · cases hck : c k with
      | none => exact (h1 hck).elim
      | some y =>
        obtain ⟨t2, x2, ks2⟩ := y
        obtain ⟨ks3, e3, -⟩ := hc3 k h2 hb t2 x2 ks2 hck
        rw [e3]; simp
  refine ⟨fun a t1 x1 ks1 e k hm => ?_, fun a i e => ?_, fun a b i e1 e2 => ?_, fun i hi => ?_⟩
  · by_cases ha : a = p
    · subst ha; rw [hc1] at e; cases e
    · by_cases hb : a = q
      · subst hb; rw [hc2] at e; cases e
        exact keep k (hk k hm).1 (hk k hm).2
      · cases hca : c a with
        | none => rw [hc4 a ha hb hca] at e; cases e
        | some y =>
          obtain ⟨t2, x2, ks2⟩ := y
          obtain ⟨ks3, e3, e4⟩ := hc3 a ha hb t2 x2 ks2 hca
          rw [e3] at e
          cases e
          rcases e4 k hm with ⟨e5, e6⟩ | rfl
          · exact keep k (h.kids a _ _ _ hca k e5) e6
          · rw [hc2]; simp
  · rcases own1 a i e with e | e
    · exact h.bound a i e.2.2
    · exact h.bound p i e.2
  · rcases own1 a i e1 with f1 | f1 <;> rcases own1 b i e2 with f2 | f2
    · exact h.unique a b i f1.2.2 f2.2.2
    · exact (f1.1 (h.unique a p i f1.2.2 f2.2)).elim
    · exact (f2.1 (h.unique b p i f2.2.2 f1.2)).elim
    · rw [f1.1, f2.1]
  · obtain ⟨h1, a, h2⟩ := h.owned i hi
    exact ⟨h1, own2 a i h2⟩

/-- The invariant. -/
structure TreeInv (s : TreeMem) (L : List Nat) : Prop where
  list : NList s L
  all : ∀ a, s.core a ≠ none → a ∈ L
  inv : CInv s.core s.strs

theorem core_none {s : TreeMem} {p : Nat} (h : s.nodes.length ≤ p) : s.core p = none := by
  unfold TreeMem.core TreeMem.node
  rw [List.getElem?_eq_none h]; rfl

theorem core_some {s : TreeMem} {p : Nat} {n : PNode} (h : s.node p = some n) : s.core p = some (n.type, n.name, n.kids) := by
  unfold TreeMem.core
  rw [h]; rfl

theorem live_core {s : TreeMem} {p : Nat} (h : s.Live p) : s.core p ≠ none := by
  obtain ⟨n, e⟩ := h
  rw [core_some e]; simp

/-- A block is made and put into the list. -/
theorem TreeInv.alloc {s : TreeMem} {L : List Nat} (h : TreeInv s L) (n : PNode) (hn : n.next = none) (strs : List Bool)
    (hi : ∀ c', (∀ a, c' a = if a = s.nodes.length then some (n.type, n.name, n.kids) else s.core a) → CInv c' strs) :
    ∃ s', ({ s with nodes := s.nodes ++ [some n], strs := strs } : TreeMem).register s.nodes.length = .ok s' ∧ TreeInv s' (L ++ [s.nodes.length]) ∧
      s'.strs = strs := by
  have hnode : ∀ a, ({ s with nodes := s.nodes ++ [some n], strs := strs } : TreeMem).node a = if a = s.nodes.length then some n else s.node a := by
    intro a
    unfold TreeMem.node
    dsimp only
    by_cases ha : a = s.nodes.length
    · subst ha; simp
    · rw [if_neg ha]
      by_cases hl : a < s.nodes.length
      · rw [List.getElem?_append_left hl]
      · rw [List.getElem?_eq_none (by simp; omega), List.getElem?_eq_none (by omega)]
  have hni : s.nodes.length ∉ L := fun hm => by
    obtain ⟨m, hm⟩ := h.list.seg.live _ hm
    exact absurd (TreeMem.node_lt hm) (by omega)
  have hl : NList ({ s with nodes := s.nodes ++ [some n], strs := strs } : TreeMem) L := by
    refine ⟨h.list.head, h.list.tail, h.list.nodup, h.list.seg.congr fun a ha => ?_⟩
    rw [hnode, if_neg fun e : a = s.nodes.length => hni (e ▸ ha)]
  obtain ⟨s', e1, e2, e3, e4, e5⟩ := register_ok hl (p := s.nodes.length) (n := n) (by rw [hnode, if_pos rfl]) hn hni
  have hcore : ∀ a, s'.core a = if a = s.nodes.length then some (n.type, n.name, n.kids) else s.core a := by
    intro a
    rw [e3]
    unfold TreeMem.core
    rw [hnode]
    by_cases ha : a = s.nodes.length
    · rw [if_pos ha, if_pos ha]; rfl
    · rw [if_neg ha, if_neg ha]
  refine ⟨s', e1, ⟨e2, fun a ha => ?_, ?_⟩, e4⟩
  · rw [hcore] at ha
    by_cases hb : a = s.nodes.length
    · simp [hb]
    · rw [if_neg hb] at ha
      exact List.mem_append_left _ (h.all a ha)
  · rw [e4]; exact hi _ hcore

theorem typeChanges_names : ∀ x ∈ typeChanges, freesName x.2 = freesName x.1 := by decide
theorem ownNames_free : ∀ t ∈ ownNames, freesName t = true := by decide
theorem sharedNames_free : ∀ t ∈ sharedNames, freesName t = false := by decide

theorem Seg.next_congr {s s' : TreeMem} : ∀ {L : List Nat}, (∀ a ∈ L, (s'.node a).map PNode.next = (s.node a).map PNode.next) → Seg s L → Seg s' L
  | [], _, _ => trivial
  | a :: l, h, ⟨⟨n, e1, e2⟩, h2⟩ => by
    refine ⟨?_, Seg.next_congr (fun b hb => h b (by simp [hb])) h2⟩
    have := h a (by simp)
    rw [e1, Option.map_some] at this
    cases hs : s'.node a with
    | none => rw [hs] at this; cases this
    | some m =>
      rw [hs, Option.map_some, Option.some.injEq] at this
      exact ⟨m, rfl, this.trans e2⟩

/-- A block is changed, but not its `next`. -/
theorem TreeInv.write {s : TreeMem} {L : List Nat} (h : TreeInv s L) {p : Nat} {n m : PNode} (hp : s.node p = some m) (hn : n.next = m.next)
    (hi : ∀ c', (∀ a, c' a = if a = p then some (n.type, n.name, n.kids) else s.core a) → CInv c' s.strs) : TreeInv (s.write p n) L := by
  have hlt := TreeMem.node_lt hp
  have hcore : ∀ a, (s.write p n).core a = if a = p then some (n.type, n.name, n.kids) else s.core a := by
    intro a
    unfold TreeMem.core
    rw [TreeMem.node_write hlt]
    by_cases ha : a = p
    · rw [if_pos ha, if_pos ha]; rfl
    · rw [if_neg ha, if_neg ha]
  refine ⟨⟨h.list.head, h.list.tail, h.list.nodup, h.list.seg.next_congr fun a _ => ?_⟩, fun a ha => ?_, hi _ hcore⟩
  · rw [TreeMem.node_write hlt]
    by_cases ha : a = p
    · rw [if_pos ha, ha, hp, Option.map_some, Option.map_some, hn]
    · rw [if_neg ha]
  · rw [hcore] at ha
    by_cases hb : a = p
    · subst hb; exact h.all a (live_core ⟨m, hp⟩)
    · rw [if_neg hb] at ha; exact h.all a ha

theorem TreeInv.bind {s s' : TreeMem} {L : List Nat} (h : TreeInv s L) (hl : NList s' L) (hc : ∀ q, s'.core q = s.core q) (hs : s'.strs = s.strs) : TreeInv s' L :=
  ⟨hl, fun a ha => h.all a (by rwa [hc] at ha), by rw [hs, show s'.core = s.core from funext hc]; exact h.inv⟩

theorem node_of_core {s : TreeMem} {p : Nat} {t : NType} {x : Option Nat} {ks : List (Option Nat)} (h : s.core p = some (t, x, ks)) :
    ∃ n, s.node p = some n ∧ n.type = t ∧ n.name = x ∧ n.kids = ks := by
  unfold TreeMem.core at h
  cases hs : s.node p with
  | none => rw [hs] at h; cases h
  | some n => rw [hs] at h; cases h; exact ⟨n, rfl, rfl, rfl, rfl⟩

/-- Everything the parser does is defined and keeps the invariant. -/
theorem step_ok {s : TreeMem} {L : List Nat} (h : TreeInv s L) {op : TreeOp} (ha : Allowed s op) : ∃ s' L', s.step op = some (.ok s') ∧ TreeInv s' L' := by
  cases op with
  | new t name kids =>
    obtain ⟨hk, hname⟩ := ha
    have hk' : ∀ k, some k ∈ kids → s.core k ≠ none := fun k hm => live_core (hk k hm)
    have h0 : s.core s.nodes.length = none := core_none le_rfl
    cases name with
    | null =>
      obtain ⟨s', e1, e2, -⟩ := h.alloc ⟨none, t, none, kids⟩ rfl s.strs (fun c' hc => h.inv.new h0 hc hk' fun _ => rfl)
      exact ⟨s', _, congrArg some e1, e2⟩
    | fresh =>
      obtain ⟨s', e1, e2, -⟩ := h.alloc ⟨none, t, some s.strs.length, kids⟩ rfl (s.strs ++ [true]) (fun c' hc => h.inv.newNamed h0 hc hk' (ownNames_free t hname))
      exact ⟨s', _, congrArg some e1, e2⟩
    | of p =>
      obtain ⟨ht, n, hn⟩ := hname
      obtain ⟨s', e1, e2, -⟩ := h.alloc ⟨none, t, n.name, kids⟩ rfl s.strs (fun c' hc => h.inv.new h0 hc hk' fun hf => by rw [sharedNames_free t ht] at hf; cases hf)
      refine ⟨s', _, ?_, e2⟩
      simp only [TreeMem.step, hn]
      exact congrArg some e1
  | retype p t =>
    obtain ⟨n, hn, ht⟩ := ha
    refine ⟨s.write p { n with type := t }, L, by simp only [TreeMem.step, hn], h.write hn rfl fun c' hc => ?_⟩
    exact h.inv.change (core_some hn) hc (fun k hm => h.inv.kids p _ _ _ (core_some hn) k hm) (typeChanges_names _ ht)
  | setkid p i q =>
    obtain ⟨⟨n, hn⟩, hq⟩ := ha
    refine ⟨s.write p { n with kids := n.kids.set i (some q) }, L, by simp only [TreeMem.step, hn], h.write hn rfl fun c' hc => ?_⟩
    refine h.inv.change (core_some hn) hc (fun k hm => ?_) rfl
    rcases mem_set_kids hm with hm | rfl
    · exact h.inv.kids p _ _ _ (core_some hn) k hm
    · exact live_core hq
  | append p kid moves slot =>
    obtain ⟨⟨n0, hn0⟩, hkid, hslot⟩ := ha
    obtain ⟨s1, L1, u1, u2, u3, u4, ⟨n, u5, u6⟩, u7, u8⟩ := unregister_ok h.list (h.all p (live_core ⟨n0, hn0⟩))
    have hcp : s.core p = some (n.type, n.name, n.kids) := by rw [← u4, core_some u5]
    have hp1 : p ∉ L1 := fun hm => ((u3 p).1 hm).2 rfl
    have hlt := TreeMem.node_lt u5
    have hkids : ∀ k, some k ∈ n.kids ++ [kid] → s.core k ≠ none := by
      intro k hm
      rcases List.mem_append.1 hm with hm | hm
      · exact h.inv.kids p _ _ _ hcp k hm
      · rw [List.mem_singleton] at hm
        exact live_core (hkid k hm.symm).1
    cases moves with
    | false =>
      have hl : NList (s1.write p { n with kids := n.kids ++ [kid] }) L1 := by
        refine ⟨u2.head, u2.tail, u2.nodup, u2.seg.congr fun a ha => ?_⟩
        rw [TreeMem.node_write hlt, if_neg fun e : a = p => hp1 (e ▸ ha)]
      obtain ⟨s2, r1, r2, r3, r4, -⟩ := register_ok hl (p := p) (n := { n with kids := n.kids ++ [kid] }) (by rw [TreeMem.node_write hlt, if_pos rfl]) u6 hp1
      have hc : ∀ a, s2.core a = if a = p then some (n.type, n.name, n.kids ++ [kid]) else s.core a := by
        intro a
        rw [r3]
        by_cases hap : a = p
        · rw [if_pos hap, hap]
          unfold TreeMem.core
          rw [TreeMem.node_write hlt, if_pos rfl]; rfl
        · rw [if_neg hap, ← u4]
          unfold TreeMem.core
          rw [TreeMem.node_write hlt, if_neg hap]
      refine ⟨s2, _, by simp only [TreeMem.step, u1, u5]; exact congrArg some r1, r2, fun a ha => ?_, ?_⟩
      · rw [List.mem_append, List.mem_singleton]
        by_cases hap : a = p
        · exact .inr hap
        · rw [hc, if_neg hap] at ha
          exact .inl ((u3 a).2 ⟨h.all a ha, hap⟩)
      · have hs : s2.strs = s.strs := r4.trans u7
        rw [hs]
        exact h.inv.change hcp hc hkids rfl
    | true =>
      -- the state after `realloc`
      obtain ⟨s1', hs1'⟩ : ∃ x : TreeMem, x = { s1 with nodes := s1.nodes.set p none ++ [some { n with kids := n.kids ++ [kid] }] } := ⟨_, rfl⟩
      have hnode : ∀ a, s1'.node a = if a = s1.nodes.length then some { n with kids := n.kids ++ [kid] } else if a = p then none else s1.node a := by
        intro a
        rw [hs1']
        unfold TreeMem.node
        dsimp only
        by_cases hl : a < s1.nodes.length
        · rw [List.getElem?_append_left (by simpa using hl), if_neg (by omega)]
          by_cases hap : a = p
          · subst hap; rw [if_pos rfl, List.getElem?_set_self hl]; rfl
          · rw [if_neg hap, List.getElem?_set_ne (Ne.symm hap)]
        · by_cases hq : a = s1.nodes.length
          · subst hq
            rw [if_pos rfl, List.getElem?_append_right (by simp)]; simp
          · rw [if_neg hq, List.getElem?_eq_none (by simp; omega), if_neg (by omega), List.getElem?_eq_none (by omega)]
      have hq1 : s1.nodes.length ∉ L1 := fun hm => by
        obtain ⟨m, hm⟩ := u2.seg.live _ hm
        exact absurd (TreeMem.node_lt hm) (by omega)
      have hl : NList s1' L1 := by
        refine ⟨?_, ?_, u2.nodup, u2.seg.congr fun a ha => ?_⟩
        · rw [hs1']; exact u2.head
        · rw [hs1']; exact u2.tail
        · rw [hnode, if_neg fun e : a = s1.nodes.length => hq1 (e ▸ ha), if_neg fun e : a = p => hp1 (e ▸ ha)]
      obtain ⟨s2, r1, r2, r3, r4, -⟩ := register_ok hl (p := s1.nodes.length) (n := { n with kids := n.kids ++ [kid] }) (by rw [hnode, if_pos rfl]) u6 hq1
      have hpq : p ≠ s1.nodes.length := by omega
      have hc : ∀ a, s2.core a = if a = s1.nodes.length then some (n.type, n.name, n.kids ++ [kid]) else if a = p then none else s.core a := by
        intro a
        rw [r3]
        unfold TreeMem.core
        rw [hnode]
        by_cases hq : a = s1.nodes.length
        · rw [if_pos hq, if_pos hq]; rfl
        · rw [if_neg hq, if_neg hq]
          by_cases hap : a = p
          · rw [if_pos hap, if_pos hap]; rfl
          · rw [if_neg hap, if_neg hap]; exact u4 a
      have hs : s2.strs = s.strs := by rw [r4, hs1']; exact u7
      have hq0 : s.core s1.nodes.length = none := core_none (by omega)
      have hall : ∀ a, s2.core a ≠ none → a ∈ L1 ++ [s1.nodes.length] := by
        intro a ha
        rw [List.mem_append, List.mem_singleton]
        by_cases hq : a = s1.nodes.length
        · exact .inr hq
        · rw [hc, if_neg hq] at ha
          by_cases hap : a = p
          · rw [if_pos hap] at ha; exact (ha rfl).elim
          · rw [if_neg hap] at ha
            exact .inl ((u3 a).2 ⟨h.all a ha, hap⟩)
      have hkp : ∀ k, some k ∈ n.kids ++ [kid] → (∀ a, s.Kid a p → a ≠ p) → s.core k ≠ none ∧ k ≠ p := by
        intro k hm hno
        refine ⟨hkids k hm, ?_⟩
        rintro rfl
        rcases List.mem_append.1 hm with hm | hm
        · obtain ⟨n', e1, -, -, e4⟩ := node_of_core hcp
          exact hno k ⟨n', e1, by rw [e4]; exact hm⟩ rfl
        · rw [List.mem_singleton] at hm
          exact (hkid k hm.symm).2 rfl
      cases slot with
      | none =>
        have hslot : ∀ a, ¬s.Kid a p := hslot
        refine ⟨s2, _, by simp only [TreeMem.step, u1, u5, if_true, ← hs1', r1], r2, hall, ?_⟩
        rw [hs]
        refine h.inv.move hcp hq0 (fun k hm => hkp k hm fun a e => (hslot a e).elim) (by rw [hc, if_neg hpq, if_pos rfl]) (by rw [hc, if_pos rfl]) ?_ ?_
        · intro a h1 h2 t x ks e
          refine ⟨ks, by rw [hc, if_neg h2, if_neg h1, e], fun k hm => .inl ⟨hm, ?_⟩⟩
          rintro rfl
          obtain ⟨n', e1, -, -, e4⟩ := node_of_core e
          exact hslot a ⟨n', e1, by rw [e4]; exact hm⟩
        · intro a h1 h2 e
          rw [hc, if_neg h2, if_neg h1, e]
      | some r =>
        obtain ⟨hone, hrp, m, x, hm, hmk, hmx⟩ := hslot
        have hrq : r ≠ s1.nodes.length := by have := TreeMem.node_lt hm; omega
        obtain ⟨m2, v1, v2, v3, v4⟩ := node_of_core (s := s2) (p := r) (t := m.type) (x := m.name) (ks := m.kids) (by rw [hc, if_neg hrq, if_neg hrp, core_some hm])
        have hlt2 := TreeMem.node_lt v1
        have hc2 : ∀ a, (s2.write r { m2 with kids := m2.kids.set 0 (some s1.nodes.length) }).core a =
            if a = r then some (m.type, m.name, some s1.nodes.length :: x) else s2.core a := by
          intro a
          unfold TreeMem.core
          rw [TreeMem.node_write hlt2]
          by_cases har : a = r
          · rw [if_pos har, if_pos har]
            simp only [Option.map_some, PNode.core, v2, v3, v4, hmk, List.set_cons_zero]
          · rw [if_neg har, if_neg har]
        refine ⟨s2.write r { m2 with kids := m2.kids.set 0 (some s1.nodes.length) }, L1 ++ [s1.nodes.length], by simp only [TreeMem.step, u1, u5, if_true, ← hs1', r1, v1], ⟨r2.head, r2.tail, r2.nodup, r2.seg.next_congr fun a _ => ?_⟩, fun a ha => ?_, ?_⟩
        · rw [TreeMem.node_write hlt2]
          by_cases har : a = r
          · rw [if_pos har, har, v1]; rfl
          · rw [if_neg har]
        · rw [hc2] at ha
          by_cases har : a = r
          · refine hall a ?_
            rw [har, core_some v1]; simp
          · rw [if_neg har] at ha; exact hall a ha
        · show CInv _ s2.strs
          rw [hs]
          refine h.inv.move hcp hq0 (fun k hm => hkp k hm fun a e => by rw [hone a e]; exact hrp) (by rw [hc2, if_neg (Ne.symm hrp), hc, if_neg hpq, if_pos rfl])
            (by rw [hc2, if_neg (Ne.symm hrq), hc, if_pos rfl]) ?_ ?_
          · intro a h1 h2 t y ks e
            by_cases har : a = r
            · subst har
              rw [core_some hm] at e
              cases e
              refine ⟨some s1.nodes.length :: x, by rw [hc2, if_pos rfl], fun k hk => ?_⟩
              rcases List.mem_cons.1 hk with hk | hk
              · exact .inr (by simpa using hk)
              · refine .inl ⟨by rw [hmk]; simp [hk], ?_⟩
                rintro rfl
                exact hmx hk
            · refine ⟨ks, by rw [hc2, if_neg har, hc, if_neg h2, if_neg h1, e], fun k hk => .inl ⟨hk, ?_⟩⟩
              rintro rfl
              obtain ⟨n', e1, -, -, e4⟩ := node_of_core e
              exact har (hone a ⟨n', e1, by rw [e4]; exact hk⟩)
          · intro a h1 h2 e
            have har : a ≠ r := by
              rintro rfl
              rw [core_some hm] at e; cases e
            rw [hc2, if_neg har, hc, if_neg h2, if_neg h1, e]

theorem TreeReads.inv {s : TreeMem} (h : TreeReads s) : ∃ L, TreeInv s L := by
  induction h with
  | new =>
    have h0 : ∀ a, TreeMem.new.core a = none := fun a => core_none (s := TreeMem.new) (Nat.zero_le a)
    refine ⟨[], ⟨rfl, fun e => (e rfl).elim, List.nodup_nil, trivial⟩, fun a ha => (ha (h0 a)).elim, fun a t x ks e => ?_, fun a i e => ?_, fun a b i e => ?_, fun i hi => ?_⟩
    · rw [h0] at e; cases e
    · obtain ⟨_, _, e, _⟩ := e; rw [h0] at e; cases e
    · obtain ⟨_, _, e, _⟩ := e; rw [h0] at e; cases e
    · exact absurd hi (Nat.not_lt_zero _)
  | step _ ha e ih =>
    obtain ⟨L, hL⟩ := ih
    obtain ⟨s2, L2, e2, h2⟩ := step_ok hL ha
    rw [e] at e2
    cases e2
    exact ⟨L2, h2⟩

/-- `node_del` of a list. -/
theorem nodeDel_ok {s : TreeMem} : ∀ (L : List Nat) (f : Nat), L.length < f → Seg s L → L.Nodup → (∀ a i, Owns s.core a i → s.strs[i]? = some true) →
    (∀ a b i, Owns s.core a i → Owns s.core b i → a = b) →
    ∃ s', nodeDel f s L.head? = some (.ok s') ∧ (∀ a, s'.node a = if a ∈ L then none else s.node a) ∧
      ∀ i, s'.strs[i]? = some true ↔ s.strs[i]? = some true ∧ ∀ a ∈ L, ¬Owns s.core a i
  | [], 0, hf, _, _, _, _ => absurd hf (Nat.not_lt_zero _)
  | [], f + 1, _, _, _, _, _ => ⟨s, rfl, by simp, by simp⟩
  | a :: l, 0, hf, _, _, _, _ => absurd hf (Nat.not_lt_zero _)
  | a :: l, f + 1, hf, ⟨⟨n, n1, n2⟩, hs⟩, hnd, hn, hu => by
    simp only [List.length_cons] at hf
    have hnd := List.nodup_cons.1 hnd
    obtain ⟨s1, e1, e2, e3⟩ := nodeDel_ok l f (by omega) hs hnd.2 hn hu
    have hna : s1.node a = some n := by rw [e2, if_neg hnd.1, n1]
    have fin : ∀ s2 : TreeMem, s2.nodes = s1.nodes → (∀ i, s2.strs[i]? = some true ↔ s1.strs[i]? = some true ∧ ¬Owns s.core a i) →
        (match s2.node a with | none => some NRes.ub | some _ => some (.ok { s2 with nodes := s2.nodes.set a none })) = some (.ok { s2 with nodes := s2.nodes.set a none }) ∧
        (∀ b, ({ s2 with nodes := s2.nodes.set a none } : TreeMem).node b = if b ∈ a :: l then none else s.node b) ∧
        ∀ i, s2.strs[i]? = some true ↔ s.strs[i]? = some true ∧ ∀ b ∈ a :: l, ¬Owns s.core b i := by
      intro s2 h1 h2
      have hn2 : ∀ b, s2.node b = s1.node b := fun b => by unfold TreeMem.node; rw [h1]
      refine ⟨by rw [hn2, hna], fun b => ?_, fun i => ?_⟩
      · by_cases hb : b = a
        · subst hb
          rw [if_pos (by simp)]
          unfold TreeMem.node
          dsimp only
          rw [List.getElem?_set_self (TreeMem.node_lt ((hn2 b).trans hna))]; rfl
        · have : ({ s2 with nodes := s2.nodes.set a none } : TreeMem).node b = s2.node b := by
            unfold TreeMem.node
            dsimp only
            rw [List.getElem?_set_ne (Ne.symm hb)]
          rw [this, hn2, e2]
          by_cases hbl : b ∈ l
          · rw [if_pos hbl, if_pos (by simp [hbl])]
          · rw [if_neg hbl, if_neg (by simp [hb, hbl])]
      · rw [h2, e3, List.forall_mem_cons]
        tauto
    rw [List.head?_cons, nodeDel, n1]
    simp only [n2, e1]
    by_cases hfr : freesName n.type = true
    · rw [if_pos hfr]
      cases hname : n.name with
      | none =>
        have no : ∀ i, ¬Owns s.core a i := by
          rintro i ⟨t, ks, e, _⟩
          rw [core_some n1, hname] at e; cases e
        obtain ⟨f1, f2, f3⟩ := fin s1 rfl fun i => ⟨fun h => ⟨h, no i⟩, fun h => h.1⟩
        exact ⟨_, f1, f2, f3⟩
      | some j =>
        have own : Owns s.core a j := ⟨n.type, n.kids, by rw [core_some n1, hname], hfr⟩
        have hj : s1.strs[j]? = some true := (e3 j).2 ⟨hn a j own, fun b hb ho => hnd.1 (hu a b j own ho ▸ hb)⟩
        have only : ∀ i, Owns s.core a i → i = j := by
          rintro i ⟨t, ks, e, _⟩
          rw [core_some n1, hname] at e; cases e; rfl
        obtain ⟨f1, f2, f3⟩ := fin { s1 with strs := s1.strs.set j false } rfl fun i => by
          dsimp only
          by_cases hij : i = j
          · subst hij
            rw [List.getElem?_set_self (List.getElem?_eq_some_iff.1 hj).1]
            simp [own]
          · rw [List.getElem?_set_ne (Ne.symm hij)]
            exact ⟨fun h => ⟨h, fun ho => hij (only i ho)⟩, fun h => h.1⟩
        simp only [TreeMem.freeStr, hj]
        exact ⟨_, f1, f2, f3⟩
    · rw [if_neg hfr]
      have no : ∀ i, ¬Owns s.core a i := by
        rintro i ⟨t, ks, e, e'⟩
        rw [core_some n1, Option.some.injEq, Prod.mk.injEq] at e
        exact hfr (e.1 ▸ e')
      obtain ⟨f1, f2, f3⟩ := fin s1 rfl fun i => ⟨fun h => ⟨h, no i⟩, fun h => h.1⟩
      exact ⟨_, f1, f2, f3⟩

theorem nodeDel_deep {s : TreeMem} : ∀ (L : List Nat) (f : Nat), f ≤ L.length → Seg s L → nodeDel f s L.head? = none
  | _, 0, _, _ => rfl
  | a :: l, f + 1, hf, ⟨⟨n, n1, n2⟩, hs⟩ => by
    simp only [List.length_cons] at hf
    rw [List.head?_cons, nodeDel, n1]
    simp only [n2, nodeDel_deep l f (by omega) hs]
  | [], f + 1, hf, _ => absurd hf (by simp)

theorem TreeInv.count {s : TreeMem} {L : List Nat} (h : TreeInv s L) : L.length = s.count := by
  refine List.Perm.length_eq ((List.perm_ext_iff_of_nodup h.list.nodup (List.nodup_range.filter _)).2 fun a => ?_)
  rw [List.mem_filter, List.mem_range]
  constructor
  · intro ha
    obtain ⟨n, e⟩ := h.list.seg.live a ha
    exact ⟨TreeMem.node_lt e, by rw [e]; rfl⟩
  · rintro ⟨-, ha⟩
    obtain ⟨n, e⟩ := Option.isSome_iff_exists.1 ha
    exact h.all a (live_core ⟨n, e⟩)

/-! ## The property -/

/-- **C115, reading**: whatever is read, no function for nodes uses a freed block, and all loops end. -/
theorem C115_defined {s : TreeMem} (h : TreeReads s) {op : TreeOp} (ha : Allowed s op) : ∃ s', s.step op = some (.ok s') ∧ TreeReads s' := by
  obtain ⟨L, hL⟩ := h.inv
  obtain ⟨s', _, e, _⟩ := step_ok hL ha
  exact ⟨s', e, h.step ha e⟩

/-- **C115, the tree**: all children of nodes are nodes that have not been freed, whatever blocks `realloc` has moved. -/
theorem C115_tree {s : TreeMem} (h : TreeReads s) {a k : Nat} (hk : s.Kid a k) : s.Live k := by
  obtain ⟨L, hL⟩ := h.inv
  obtain ⟨n, e1, e2⟩ := hk
  have := hL.inv.kids a _ _ _ (core_some e1) k e2
  cases hc : s.core k with
  | none => exact (this hc).elim
  | some c =>
    obtain ⟨t, x, ks⟩ := c
    obtain ⟨m, e, -⟩ := node_of_core hc
    exact ⟨m, e⟩

/-- **C115, freeing**: in the end every node and every name is freed, none of them twice. -/
theorem C115_freed {s : TreeMem} (h : TreeReads s) {f : Nat} (hf : s.count < f) :
    ∃ s' : TreeMem, s.cleanup f = some (.ok s') ∧ (∀ p, s'.node p = none) ∧ ∀ i : Nat, s'.strs[i]? ≠ some true := by
  obtain ⟨L, hL⟩ := h.inv
  obtain ⟨s', e1, e2, e3⟩ := nodeDel_ok L f (by rw [hL.count]; exact hf) hL.list.seg hL.list.nodup (fun a i ho => (hL.inv.owned i (hL.inv.bound a i ho)).1) hL.inv.unique
  refine ⟨s', by rw [TreeMem.cleanup, hL.list.head, e1], fun p => ?_, fun i hi => ?_⟩
  · rw [e2]
    by_cases hp : p ∈ L
    · rw [if_pos hp]
    · rw [if_neg hp]
      cases hn : s.node p with
      | none => rfl
      | some n => exact (hp (hL.all p (live_core ⟨n, hn⟩))).elim
  · obtain ⟨h1, h2⟩ := (e3 i).1 hi
    obtain ⟨-, a, ho⟩ := hL.inv.owned i (List.getElem?_eq_some_iff.1 h1).1
    obtain ⟨t, ks, e, -⟩ := id ho
    exact h2 a (hL.all a (by rw [e]; simp)) ho

/-- **C115, depth**: the recursion that frees the nodes is exactly as deep as the number of nodes (of all texts read so far), plus one: with less stack the program ends here. -/
theorem C115_depth {s : TreeMem} (h : TreeReads s) (f : Nat) : s.cleanup f = none ↔ f ≤ s.count := by
  obtain ⟨L, hL⟩ := h.inv
  constructor
  · intro e
    rcases Nat.lt_or_ge s.count f with hlt | hge
    · obtain ⟨s', e1, -⟩ := C115_freed h hlt
      rw [e] at e1; cases e1
    · exact hge
  · intro hf
    rw [TreeMem.cleanup, hL.list.head]
    exact nodeDel_deep L f (by rw [hL.count]; exact hf) hL.list.seg

/-- What the parser does for `f(1)`: the list of arguments (0), the name (1), the call (2), the number (3), which is appended to the list; the list is moved (4), and it is a child of
the call. -/
def callText : List TreeOp := [.new .body .null [], .new .var .fresh [], .new .call .null [some 0, some 1], .new .int .null [], .append 0 (some 3) true (some 2)]

/-- One after the other (for the example). -/
def TreeMem.runs (s : TreeMem) : List TreeOp → Option TreeMem
  | [] => some s
  | op :: ops => match s.step op with
    | some (.ok s') => s'.runs ops
    | _ => none

/-- A concrete case: after `f(1)` there are four nodes, the first child of the call is the moved list, and a recursion of depth five frees all of them. -/
example : ∃ s s', TreeMem.new.runs callText = some s ∧ TreeReads s ∧ s.count = 4 ∧ s.Kid 2 4 ∧ ¬s.Live 0 ∧ s.cleanup 4 = none ∧ s.cleanup 5 = some (.ok s') := by
  have r1 : TreeReads ⟨[some ⟨none, .body, none, []⟩], [], some 0, some 0⟩ := TreeReads.new.step (op := .new .body .null []) ⟨by simp, by decide⟩ rfl
  have r2 : TreeReads ⟨[some ⟨some 1, .body, none, []⟩, some ⟨none, .var, some 0, []⟩], [true], some 0, some 1⟩ := r1.step (op := .new .var .fresh []) ⟨by simp, by decide⟩ rfl
  have r3 : TreeReads ⟨[some ⟨some 1, .body, none, []⟩, some ⟨some 2, .var, some 0, []⟩, some ⟨none, .call, none, [some 0, some 1]⟩], [true], some 0, some 2⟩ :=
    r2.step (op := .new .call .null [some 0, some 1]) ⟨fun k hk => by
      simp only [List.mem_cons, Option.some.injEq, List.not_mem_nil, or_false] at hk
      rcases hk with rfl | rfl
      · exact ⟨_, rfl⟩
      · exact ⟨_, rfl⟩, by decide⟩ rfl
  have r4 : TreeReads ⟨[some ⟨some 1, .body, none, []⟩, some ⟨some 2, .var, some 0, []⟩, some ⟨some 3, .call, none, [some 0, some 1]⟩, some ⟨none, .int, none, []⟩], [true], some 0, some 3⟩ :=
    r3.step (op := .new .int .null []) ⟨by simp, by decide⟩ rfl
  have r5 : TreeReads ⟨[none, some ⟨some 2, .var, some 0, []⟩, some ⟨some 3, .call, none, [some 4, some 1]⟩, some ⟨some 4, .int, none, []⟩, some ⟨none, .body, none, [some 3]⟩], [true], some 1, some 4⟩ :=
    r4.step (op := .append 0 (some 3) true (some 2)) (by
      refine ⟨⟨_, rfl⟩, fun k hk => ?_, ?_⟩
      · cases hk; exact ⟨⟨_, rfl⟩, by decide⟩
      · refine ⟨?_, by decide, _, [some 1], rfl, rfl, by decide⟩
        rintro a ⟨n, e1, e2⟩
        match a, e1 with
        | 0, e1 => cases e1; simp at e2
        | 1, e1 => cases e1; simp at e2
        | 2, _ => rfl
        | 3, e1 => cases e1; simp at e2
        | a + 4, e1 => cases e1) rfl
  obtain ⟨s', e, -⟩ := C115_freed r5 (f := 5) (by decide)
  refine ⟨⟨[none, some ⟨some 2, .var, some 0, []⟩, some ⟨some 3, .call, none, [some 4, some 1]⟩, some ⟨some 4, .int, none, []⟩, some ⟨none, .body, none, [some 3]⟩], [true], some 1,
    some 4⟩, s', rfl, r5, by decide, ⟨_, rfl, by simp⟩, ?_, (C115_depth r5 4).2 (by decide), e⟩
  rintro ⟨n, e⟩
  cases e

end Yasl
