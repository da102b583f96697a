import Verif.Spec.RefCount
import Verif.Proofs.RefCount
import Mathlib.Data.Fintype.Card
import Mathlib.Data.Fintype.EquivFin
set_option autoImplicit false
/-! # C60 reference counts, C61 list.pop -/
namespace Yasl

theorem refsTo_eq (s : RState) (a : Nat) : s.refsTo a = (s.slots ++ s.loops).count (some a) + ∑ i ∈ Finset.range s.heap.next \ ∅, s.heap.holds i a := by
  rw [List.count_append, Finset.sdiff_empty]
  rfl

theorem count_none (n a : Nat) : (List.replicate n (none : RV)).count (some a) = 0 :=
  List.count_eq_zero.2 fun m => by have := (List.mem_replicate.1 m).2; cases this

theorem RInv.refs {L : List RV} {s : RState} (I : RInv L s) (a : Nat) : s.heap.refsOf a = s.refsTo a + L.count (some a) := by
  rw [I.bal.sum a, refsTo_eq]
  simp only [List.count_append]
  omega

theorem RInv.init : RInv [] RState.init := by
  refine ⟨⟨fun a => ?_, fun _ _ => rfl⟩, List.length_replicate .., by decide, fun a c e => by cases e⟩
  have h0 : RState.init.slots.count (some a) = 0 := count_none 1024 a
  have h1 : RState.init.loops ++ [] = [] := rfl
  have h2 : RState.init.heap.next = 0 := rfl
  have h3 : RState.init.heap.refsOf a = 0 := rfl
  rw [List.count_append, h0, h1, h2, h3]
  simp

/-- Every operation but the direct index preserves the invariant. -/
theorem step_safe {L : List RV} {s : RState} (I : RInv L s) (op : ROp) (hd : op.notDirect = true) :
    s.step op = .bad ∨ ∃ s' L', s.step op = .ok s' ∧ RInv (L' ++ L) s' ∧ (op.notPop = true → L' = []) ∧ L'.length ≤ 1 := by
  have fromSafe : Safe L (s.step op) → s.step op = .bad ∨ ∃ s' L', s.step op = .ok s' ∧ RInv (L' ++ L) s' ∧ (op.notPop = true → L' = []) ∧ L'.length ≤ 1 := by
    rintro (e | ⟨s', e, I'⟩)
    · exact .inl e
    · exact .inr ⟨s', [], e, I', fun _ => rfl, by simp⟩
  cases op with
  | pushPlain => exact fromSafe (push_safe I (t := s.top) (fun _ _ _ _ a ha => by cases ha))
  | pushNew => exact fromSafe (step_pushNew I)
  | load i => exact fromSafe (step_load I i)
  | pop =>
    refine fromSafe ?_
    simp only [RState.step]
    split
    · exact .inl rfl
    · exact .inr ⟨_, rfl, ⟨I.bal, I.len, by show s.top - 1 ≤ 1024; have := I.top; omega, I.nz⟩⟩
  | store i => exact fromSafe (step_store I i)
  | newList n => exact fromSafe (step_newList I n)
  | getItem i j => exact fromSafe (step_getItem I i j)
  | append i => exact fromSafe (step_append I i)
  | setItem i j => exact fromSafe (step_setItem I i j)
  | tableNew i => exact fromSafe (step_tableNew I i)
  | tableOld i j => exact fromSafe (step_tableOld I i j)
  | tableRm i j => exact fromSafe (step_tableRm I i j)
  | resize i => exact fromSafe (step_resize I i)
  | clear i => exact fromSafe (step_clear I i)
  | swap => exact fromSafe (step_swap I)
  | rm i => exact fromSafe (step_rm I i)
  | insert i => exact fromSafe (step_insert I i)
  | rmRange b e => exact fromSafe (step_rmRange I b e)
  | initFor => exact fromSafe (step_initFor I)
  | endFor => exact fromSafe (step_endFor I)
  | endComp => exact fromSafe (step_endComp I)
  | listPop i =>
    rcases step_listPop_safe I i with e | ⟨s', e⟩
    · exact .inl e
    · obtain ⟨v, I', _⟩ := step_listPop I i e
      exact .inr ⟨s', [v], e, I', (fun h => by cases h), by simp⟩
  | getDirect j => cases hd

theorem run_safe : ∀ (ops : List ROp) {L : List RV} {s : RState}, RInv L s → (∀ op ∈ ops, op.notDirect = true) →
    s.run ops = .bad ∨ ∃ s' L', s.run ops = .ok s' ∧ RInv (L' ++ L) s' ∧ ((∀ op ∈ ops, op.notPop = true) → L' = []) ∧
      L'.length ≤ ops.countP (fun op => !op.notPop) := by
  intro ops
  induction ops with
  | nil => intro L s I _; exact .inr ⟨s, [], rfl, I, fun _ => rfl, by simp⟩
  | cons op ops ih =>
    intro L s I hd
    rcases step_safe I op (hd op (by simp)) with e | ⟨s1, L1, e, I1, n1, l1⟩
    · left; rw [RState.run, e]; rfl
    · rcases ih I1 (fun o ho => hd o (by simp [ho])) with e2 | ⟨s2, L2, e2, I2, n2, l2⟩
      · left; rw [RState.run, e]; exact e2
      · right
        refine ⟨s2, L2 ++ L1, by rw [RState.run, e]; exact e2, by rw [List.append_assoc]; exact I2, fun h => ?_, ?_⟩
        · rw [n1 (h op (by simp)), n2 (fun o ho => h o (by simp [ho]))]; rfl
        · rw [List.length_append, List.countP_cons]
          cases hp : op.notPop with
          | false => simp; omega
          | true => rw [n1 hp]; simpa using l2

/-- **C60** (part; missing: indexing a table whose metatable has no `__get`, see `C60_get_uses_freed`; `list.pop`, see C61; closures' upvalues). In every
history of pushes, pops, stores to the stack, to lists and to tables, removals and loops: no freed object is ever used, the nesting of releases is at most
the number of objects, and after the history the count of each object is the number of references to it and it is there exactly if that is not 0. -/
theorem C60_history_partial (ops : List ROp) (hd : ∀ op ∈ ops, op.notDirect = true) (hp : ∀ op ∈ ops, op.notPop = true) :
    RState.init.run ops = .bad ∨
    ∃ s, RState.init.run ops = .ok s ∧ ∀ a,
      (∀ c, s.heap.cell a = some c → c.refs = s.refsTo a) ∧ (s.heap.Live a ↔ 0 < s.refsTo a) := by
  rcases run_safe ops RInv.init hd with e | ⟨s, L, e, I, n, _⟩
  · exact .inl e
  · right
    rw [n hp] at I
    refine ⟨s, e, fun a => ?_⟩
    have hr := I.refs a
    simp only [List.append_nil, List.count_nil, Nat.add_zero] at hr
    constructor
    · intro c ec
      rw [← hr, RHeap.refsOf, ec]
    · constructor
      · rintro ⟨c, ec⟩
        have := I.nz a c ec
        rw [← hr, RHeap.refsOf, ec]; exact this
      · intro p
        rw [← hr] at p
        obtain ⟨c, ec, _⟩ := refsOf_pos_live p
        exact ⟨c, ec⟩

/-- **C60** (part), also with `list.pop`: the count is never below the number of references, and above it by no more than the number of `pop`s. -/
theorem C60_history_pops_partial (ops : List ROp) (hd : ∀ op ∈ ops, op.notDirect = true) :
    RState.init.run ops = .bad ∨
    ∃ s, RState.init.run ops = .ok s ∧ ∃ L : List RV, L.length ≤ ops.countP (fun op => !op.notPop) ∧
      ∀ a, (∀ c, s.heap.cell a = some c → c.refs = s.refsTo a + L.count (some a)) ∧ (s.heap.Live a ↔ 0 < s.refsTo a + L.count (some a)) := by
  rcases run_safe ops RInv.init hd with e | ⟨s, L, e, I, n, l⟩
  · exact .inl e
  · right
    rw [List.append_nil] at I
    refine ⟨s, e, L, l, fun a => ?_⟩
    have hr := I.refs a
    constructor
    · intro c ec
      rw [← hr, RHeap.refsOf, ec]
    · constructor
      · rintro ⟨c, ec⟩
        have := I.nz a c ec
        rw [← hr, RHeap.refsOf, ec]; exact this
      · intro p
        rw [← hr] at p
        obtain ⟨c, ec, _⟩ := refsOf_pos_live p
        exact ⟨c, ec⟩

theorem RInv.reach_live {L : List RV} {s : RState} (I : RInv L s) {a : Nat} (r : s.Reach a) : s.heap.Live a := by
  induction r with
  | slot m => exact I.bal.mem_live (List.mem_append_left _ m)
  | loop m => exact I.bal.mem_live (List.mem_append_right _ (List.mem_append_left _ m))
  | held _ hh _ =>
    obtain ⟨c, ec, m⟩ := hh
    exact I.bal.item_live ec (by simp) m

/-- **C60** (part): what the program can get at is not freed. -/
theorem C60_reachable_kept_partial (ops : List ROp) (hd : ∀ op ∈ ops, op.notDirect = true) (s : RState) (e : RState.init.run ops = .ok s) (a : Nat)
    (r : s.Reach a) : s.heap.Live a := by
  rcases run_safe ops RInv.init hd with e' | ⟨s', L, e', I, _⟩
  · rw [e'] at e; cases e
  · rw [e'] at e; cases e; exact I.reach_live r

/-- In a finite graph, where every vertex of a set has a predecessor in the set, every vertex of the set lies below a cycle. -/
theorem below_cycle {n : Nat} {rel : Nat → Nat → Prop} {S : Nat → Prop} (bd : ∀ a, S a → a < n) (pr : ∀ a, S a → ∃ b, S b ∧ rel b a) {a : Nat} (ha : S a) :
    ∃ b, Relation.TransGen rel b b ∧ Relation.ReflTransGen rel b a := by
  classical
  choose! p hp1 hp2 using pr
  have hit : ∀ k, S (p^[k] a) := by
    intro k
    induction k with
    | zero => exact ha
    | succ k ih => rw [Function.iterate_succ_apply']; exact hp1 _ ih
  have up : ∀ k d, Relation.ReflTransGen rel (p^[k + d] a) (p^[k] a) := by
    intro k d
    induction d with
    | zero => exact .refl
    | succ d ih =>
      rw [← Nat.add_assoc, Function.iterate_succ_apply']
      exact Relation.ReflTransGen.head (hp2 _ (hit _)) ih
  obtain ⟨i, j, ne, eq⟩ := Finite.exists_ne_map_eq_of_infinite (fun k : Nat => (⟨p^[k] a, bd _ (hit k)⟩ : Fin n))
  simp only [Fin.mk.injEq] at eq
  have main : ∀ i j : Nat, i < j → p^[i] a = p^[j] a → ∃ b, Relation.TransGen rel b b ∧ Relation.ReflTransGen rel b a := by
    intro i j lt eq
    refine ⟨p^[i] a, ?_, ?_⟩
    · have h1 : rel (p^[j] a) (p^[j - 1] a) := by
        have := hp2 _ (hit (j - 1))
        rwa [← Function.iterate_succ_apply' p, show (j - 1).succ = j by omega] at this
      have h2 := up i (j - 1 - i)
      rw [show i + (j - 1 - i) = j - 1 by omega] at h2
      conv => arg 2; rw [eq]
      exact Relation.TransGen.head' h1 h2
    · have := up 0 i
      simpa using this
  rcases Nat.lt_or_gt_of_ne ne with lt | lt
  · exact main i j lt eq
  · exact main j i lt eq.symm

theorem unreached_below_cycle {s : RState} (I : RInv [] s) {a : Nat} (lv : s.heap.Live a) (nr : ¬ s.Reach a) : s.heap.BelowCycle a := by
  refine below_cycle (n := s.heap.next) (S := fun a => s.heap.Live a ∧ ¬ s.Reach a) (fun a h => ?_) (fun a h => ?_) ⟨lv, nr⟩
  · obtain ⟨⟨c, ec⟩, _⟩ := h; exact I.bal.live_lt ec
  · obtain ⟨⟨c, ec⟩, nr⟩ := h
    have p := I.nz a c ec
    have hs := I.bal.sum a
    rw [List.append_nil] at hs
    have h0 : (s.slots ++ s.loops).count (some a) = 0 := by
      refine List.count_eq_zero.2 fun m => nr ?_
      rcases List.mem_append.1 m with m | m
      · exact .slot m
      · exact .loop m
    rw [h0, Nat.zero_add, RHeap.refsOf, ec] at hs
    obtain ⟨i, hi, hne⟩ := Finset.exists_ne_zero_of_sum_ne_zero (show ∑ i ∈ Finset.range s.heap.next \ ∅, s.heap.holds i a ≠ 0 by dsimp only at hs; omega)
    unfold RHeap.holds at hne
    cases ei : s.heap.cell i with
    | none => rw [ei] at hne; exact absurd rfl hne
    | some ci =>
      rw [ei] at hne
      have m : some a ∈ ci.items := List.count_pos_iff.1 (Nat.pos_of_ne_zero hne)
      exact ⟨i, ⟨⟨ci, ei⟩, fun r => nr (.held r ⟨ci, ei, m⟩)⟩, ⟨ci, ei, m⟩⟩

/-- **C60** (part; without `list.pop`): an object the program cannot get at any more is freed, unless a cycle of objects holds it. -/
theorem C60_unreachable_freed_partial (ops : List ROp) (hd : ∀ op ∈ ops, op.notDirect = true) (hp : ∀ op ∈ ops, op.notPop = true) (s : RState)
    (e : RState.init.run ops = .ok s) (a : Nat) (nr : ¬ s.Reach a) (nc : ¬ s.heap.BelowCycle a) : s.heap.cell a = none := by
  rcases run_safe ops RInv.init hd with e' | ⟨s', L, e', I, n, _⟩
  · rw [e'] at e; cases e
  · rw [e'] at e; cases e
    rw [n hp] at I
    by_contra h
    obtain ⟨c, ec⟩ := Option.ne_none_iff_exists'.1 h
    exact nc (unreached_below_cycle I ⟨c, ec⟩ nr)

/-- **C60** (part; without `list.pop`): the end of the program frees every object not held by a cycle. -/
theorem C60_cleanup_partial (ops : List ROp) (hd : ∀ op ∈ ops, op.notDirect = true) (hp : ∀ op ∈ ops, op.notPop = true) (s : RState)
    (e : RState.init.run ops = .ok s) : ∃ h, s.cleanup = .ok h ∧ ∀ a, ¬ s.heap.BelowCycle a → h.cell a = none := by
  rcases run_safe ops RInv.init hd with e' | ⟨s', L, e', I, n, _⟩
  · rw [e'] at e; cases e
  rw [e'] at e; cases e
  rw [n hp] at I
  have Bl : Bal ∅ s.heap (s.loops ++ s.slots) := I.bal.perm (by simpa using List.perm_append_comm)
  obtain ⟨h1, e1, B1, S1⟩ := decAll_ok (f := s.fuel) s.loops Bl (by intro a ha; simp at ha) (posSet_le _)
  obtain ⟨h2, e2, B2, S2⟩ := decAll_ok (f := s.fuel) s.slots (R := []) (by simpa using B1) (by intro a ha; simp at ha)
    (le_trans (Finset.card_le_card S1.posSet) (posSet_le _))
  refine ⟨h2, by rw [RState.cleanup, e1]; exact e2, fun a nc => ?_⟩
  by_contra hh
  obtain ⟨c, ec⟩ := Option.ne_none_iff_exists'.1 hh
  have S := S1.trans S2
  have I2 : RInv [] ⟨h2, List.replicate 1024 none, 0, []⟩ := by
    refine ⟨B2.congr fun x => ?_, List.length_replicate .., Nat.zero_le _, I.nz.shr S⟩
    rw [List.count_append, count_none]; rfl
  have nr : ∀ (x : RState) (b : Nat), x.slots = List.replicate 1024 none → x.loops = [] → ¬ x.Reach b := by
    intro x b h1 h2 r
    induction r with
    | slot m => rw [h1] at m; have := (List.mem_replicate.1 m).2; cases this
    | loop m => rw [h2] at m; cases m
    | held _ _ ih => exact ih
  obtain ⟨b, cb, rb⟩ := unreached_below_cycle I2 ⟨c, ec⟩ (nr _ a rfl rfl)
  refine nc ?_
  have mono : ∀ x y, h2.Holds x y → s.heap.Holds x y := by
    rintro x y ⟨cx, ex, m⟩
    obtain ⟨c0, f0, f1, _⟩ := S.some_inv ex
    exact ⟨c0, f0, f1 ▸ m⟩
  exact ⟨b, Relation.TransGen.mono mono b b cb, Relation.ReflTransGen.mono mono b a rb⟩

/-- The history `let a = ['…']` as operations: an end mark, a new string, a list of one element; then another value, over the slot the string was in. -/
def demoRefs : List ROp := [.pushPlain, .pushNew, .newList 1, .pushPlain]

/-- `l = []; l.push(l)`, then the list is overwritten: it stays, as the history has made a cycle. -/
def demoCycle : List ROp := [.pushPlain, .newList 0, .load 0, .append 0, .pushPlain, .store 0, .pushPlain, .pushPlain, .pushPlain]

/-- The counts and items of objects 0 and 1, the references to object 0, the number of values on the stack (for the examples). -/
def lookAt (r : RcRes RState) : RcRes (Option Cell × Option Cell × Nat × Nat) := r.bind fun s => .ok (s.heap.cell 0, s.heap.cell 1, s.refsTo 0, s.top)

/-- The hypotheses of the theorems above are met: the string is held by the list only, and the list by the stack; overwriting the list frees both. -/
example : lookAt (RState.init.run demoRefs) = .ok (some ⟨1, []⟩, some ⟨1, [some 0]⟩, 1, 2) ∧
    lookAt (RState.init.run (demoRefs ++ [.pushPlain, .store 0])) = .ok (none, none, 0, 2) ∧
    lookAt (RState.init.run demoCycle) = .ok (some ⟨1, [some 0]⟩, none, 1, 4) := by
  decide +kernel

theorem Shr.holds_le {h h' : RHeap} (S : Shr h h') (i x : Nat) : h'.holds i x ≤ h.holds i x := by
  cases e : h'.cell i with
  | none => simp [RHeap.holds, e]
  | some c =>
    obtain ⟨c0, f0, f1, _⟩ := S.some_inv e
    simp [RHeap.holds, e, f0, f1]

/-- **C60 is false** of `O_GET` on a table whose metatable has no `__get` (made with `setmetatable`, or by `copy`): after every history, if the stack holds
the only reference to the table, and the table the only one to the value that is found, then the table is released before the value is taken, and a freed
object is pushed. -/
theorem C60_get_uses_freed (ops : List ROp) (hd : ∀ op ∈ ops, op.notDirect = true) (s : RState) (e : RState.init.run ops = .ok s)
    (ht : 2 ≤ s.top) (a b j : Nat) (c cb : Cell) (ea : s.slots[s.top - 2]? = some (some a)) (ec : s.heap.cell a = some c) (r1 : c.refs = 1)
    (ej : c.items[j]? = some (some b)) (eb : s.heap.cell b = some cb) (r2 : cb.refs = 1) : s.step (.getDirect j) = .uaf := by
  rcases run_safe ops RInv.init hd with e' | ⟨s', L, e', I, _⟩
  · rw [e'] at e; cases e
  rw [e'] at e; cases e
  rw [List.append_nil] at I
  have htop := I.top
  simp only [RState.step]
  rw [if_pos ht]
  have eo : s.obj (s.top - 2) = some (a, c) := by simp [RState.obj, ea, ec]
  rw [eo]; dsimp only; rw [ej]; dsimp only
  unfold RState.push
  dsimp only
  rw [if_neg (by omega), ea]; dsimp only
  obtain ⟨h1, e1, B1, S1⟩ := decRef_ok s.fuel ∅ s.heap (some a) (s.slots.eraseIdx (s.top - 2) ++ (s.loops ++ L))
    (I.bal.perm (by simpa using (perm_eraseIdx ea).append_right _)) (by intro a ha; simp at ha) (posSet_le _)
  have hle : ∀ x, ∑ i ∈ Finset.range h1.next \ ∅, h1.holds i x ≤ ∑ i ∈ Finset.range s.heap.next \ ∅, s.heap.holds i x := fun x => by
    rw [S1.next]; exact Finset.sum_le_sum fun i _ => S1.holds_le i x
  have hcnt : ∀ x, (s.slots ++ (s.loops ++ L)).count (some x) = (s.slots.eraseIdx (s.top - 2) ++ (s.loops ++ L)).count (some x) + [some a].count (some x) := fun x => by
    simp only [List.count_append, count_eraseIdx_add ea (some x)]; omega
  have za : h1.refsOf a = 0 := by
    have h1s := B1.sum a
    have h0s := I.bal.sum a
    rw [hcnt a, RHeap.refsOf, ec] at h0s
    have := hle a
    simp at h0s
    simp at h1s this
    omega
  have dead : ∀ x, h1.refsOf x = 0 → h1.cell x = none := by
    intro x z
    by_contra hh
    obtain ⟨cx, ex⟩ := Option.ne_none_iff_exists'.1 hh
    have := I.nz.shr S1 x cx ex
    rw [RHeap.refsOf, ex] at z
    dsimp only at z; omega
  have ca := dead a za
  have zb : h1.refsOf b = 0 := by
    have h1s := B1.sum b
    have h0s := I.bal.sum b
    rw [hcnt b, RHeap.refsOf, eb] at h0s
    have ma : a ∈ Finset.range s.heap.next \ ∅ := by simp [I.bal.live_lt ec]
    have hpos : 1 ≤ s.heap.holds a b := by
      simp only [RHeap.holds, ec]; exact List.count_pos_iff.2 (List.mem_of_getElem? ej)
    have ha0 : h1.holds a b = 0 := by simp [RHeap.holds, ca]
    rw [← Finset.add_sum_erase _ _ ma] at h0s
    rw [S1.next, ← Finset.add_sum_erase _ _ ma, ha0] at h1s
    have hle2 : ∑ i ∈ (Finset.range s.heap.next \ ∅).erase a, h1.holds i b ≤ ∑ i ∈ (Finset.range s.heap.next \ ∅).erase a, s.heap.holds i b :=
      Finset.sum_le_sum fun i _ => S1.holds_le i b
    dsimp only at h0s
    omega
  have e1 : decRef (RState.fuel { s with top := s.top - 2 }) s.heap (some a) = .ok h1 := e1
  rw [e1]
  show (incRef h1 (some b)).bind _ = _
  rw [incRef, dead b zb]; rfl

/-- **C60** (part): such an index is fine if there is another reference to the table, or the value found is not a counted one. -/
theorem C60_get_partial (ops : List ROp) (hd : ∀ op ∈ ops, op.notDirect = true) (s : RState) (e : RState.init.run ops = .ok s) (j : Nat)
    (two : ∀ a c, s.slots[s.top - 2]? = some (some a) → s.heap.cell a = some c → 2 ≤ c.refs ∨ c.items[j]? = some none) :
    s.step (.getDirect j) = .bad ∨ ∃ s', s.step (.getDirect j) = .ok s' ∧ ∀ a, s'.Reach a → s'.heap.Live a := by
  rcases run_safe ops RInv.init hd with e' | ⟨s', L, e', I, _⟩
  · rw [e'] at e; cases e
  rw [e'] at e; cases e
  rcases step_getDirect I j (fun a c eo => two a c (obj_inv eo).1 (obj_inv eo).2) with g | ⟨s2, g, I2⟩
  · exact .inl g
  · exact .inr ⟨s2, g, fun a r => I2.reach_live r⟩

/-- The history above meets the hypotheses of `C60_get_uses_freed`. -/
example : lookAt (RState.init.run demoRefs) = .ok (some ⟨1, []⟩, some ⟨1, [some 0]⟩, 1, 2) ∧
    (RState.init.run demoRefs).bind (fun s => .ok s.slots[0]?) = .ok (some (some 1)) ∧ lookAt (RState.init.run (demoRefs ++ [.getDirect 0])) = .uaf := by
  decide +kernel

/-- **C61 is false**: after every history, `pop` of a string, list, table or other counted value makes the excess of its count over the number of references
to it greater by one, and leaves that of every other object as it is. -/
theorem C61_leaks (ops : List ROp) (hd : ∀ op ∈ ops, op.notDirect = true) (s s' : RState) (e : RState.init.run ops = .ok s) (i a b : Nat) (c : Cell)
    (ea : s.slots[i]? = some (some a)) (ec : s.heap.cell a = some c) (el : c.items.getLast? = some (some b)) (e2 : s.step (.listPop i) = .ok s') :
    (∃ c0 c1, s.heap.cell b = some c0 ∧ s'.heap.cell b = some c1 ∧ c1.refs + s.refsTo b = c0.refs + s'.refsTo b + 1) ∧
    ∀ x c0 c1, x ≠ b → s.heap.cell x = some c0 → s'.heap.cell x = some c1 → c1.refs + s.refsTo x = c0.refs + s'.refsTo x := by
  rcases run_safe ops RInv.init hd with e' | ⟨s0, L, e', I, _⟩
  · rw [e'] at e; cases e
  rw [e'] at e; cases e
  rw [List.append_nil] at I
  obtain ⟨v, I2, a', c', eo, el', _⟩ := step_listPop I i e2
  obtain ⟨ea', ec'⟩ := obj_inv eo
  rw [ea] at ea'; cases ea'
  rw [ec] at ec'; cases ec'
  rw [el] at el'; cases el'
  constructor
  · obtain ⟨c0, f0⟩ := I.bal.item_live ec (by simp) (List.mem_of_getLast? el)
    obtain ⟨c1, f1⟩ := I2.bal.mem_live (a := b) (by simp)
    refine ⟨c0, c1, f0, f1, ?_⟩
    have g0 := I.refs b
    have g1 := I2.refs b
    rw [RHeap.refsOf, f0] at g0
    rw [RHeap.refsOf, f1, List.count_cons_self] at g1
    dsimp only at g0 g1
    omega
  · intro x c0 c1 ne f0 f1
    have g0 := I.refs x
    have g1 := I2.refs x
    rw [RHeap.refsOf, f0] at g0
    rw [RHeap.refsOf, f1, List.count_cons_of_ne (by simpa using fun hh => ne hh.symm)] at g1
    dsimp only at g0 g1
    omega

/-- **C61 is false**: a counted value that was popped is never freed, whatever follows. -/
theorem C61_never_freed (ops more : List ROp) (hd : ∀ op ∈ ops, op.notDirect = true) (hm : ∀ op ∈ more, op.notDirect = true) (s s' : RState)
    (e : RState.init.run ops = .ok s) (i a b : Nat) (c : Cell) (ea : s.slots[i]? = some (some a)) (ec : s.heap.cell a = some c)
    (el : c.items.getLast? = some (some b)) (e2 : s.run (.listPop i :: more) = .ok s') : s'.heap.Live b := by
  rcases run_safe ops RInv.init hd with e' | ⟨s0, L, e', I, _⟩
  · rw [e'] at e; cases e
  rw [e'] at e; cases e
  rw [List.append_nil] at I
  rw [RState.run] at e2
  rcases step_listPop_safe I i with g | ⟨s1, g⟩
  · rw [g] at e2; cases e2
  obtain ⟨v, I2, a', c', eo, el', _⟩ := step_listPop I i g
  obtain ⟨ea', ec'⟩ := obj_inv eo
  rw [ea] at ea'; cases ea'
  rw [ec] at ec'; cases ec'
  rw [el] at el'; cases el'
  rw [g] at e2
  have e2 : s1.run more = .ok s' := e2
  rcases run_safe more I2 hm with g | ⟨s2, L2, g, I3, _⟩
  · rw [g] at e2; cases e2
  · rw [g] at e2; cases e2
    exact I3.bal.mem_live (by simp)

/-- **C61** (part; true only of values that are not counted: numbers, booleans, `undef`, and functions that capture nothing): the counts stay exact. -/
theorem C61_uncounted_partial (ops : List ROp) (hd : ∀ op ∈ ops, op.notDirect = true) (hp : ∀ op ∈ ops, op.notPop = true) (s s' : RState)
    (e : RState.init.run ops = .ok s) (i a : Nat) (c : Cell) (ea : s.slots[i]? = some (some a)) (ec : s.heap.cell a = some c)
    (el : c.items.getLast? = some none) (e2 : s.step (.listPop i) = .ok s') :
    (∀ x c1, s'.heap.cell x = some c1 → c1.refs = s'.refsTo x) ∧ ∀ x, s'.heap.Live x ↔ 0 < s'.refsTo x := by
  rcases run_safe ops RInv.init hd with e' | ⟨s0, L, e', I, n, _⟩
  · rw [e'] at e; cases e
  rw [e'] at e; cases e
  rw [n hp] at I
  obtain ⟨v, I2, a', c', eo, el', _⟩ := step_listPop I i e2
  obtain ⟨ea', ec'⟩ := obj_inv eo
  rw [ea] at ea'; cases ea'
  rw [ec] at ec'; cases ec'
  rw [el] at el'; cases el'
  have hr : ∀ x, s'.heap.refsOf x = s'.refsTo x := fun x => by
    have := I2.refs x
    rw [this, List.append_nil, List.count_cons_of_ne (by simp)]
    rfl
  refine ⟨fun x c1 f => by rw [← hr x, RHeap.refsOf, f], fun x => ⟨?_, fun p => ?_⟩⟩
  · rintro ⟨c1, f⟩
    rw [← hr x, RHeap.refsOf, f]
    exact I2.nz x c1 f
  · rw [← hr x] at p
    obtain ⟨c1, f, _⟩ := refsOf_pos_live p
    exact ⟨c1, f⟩

/-- `['…'].pop()` and then everything else overwritten: the string stays. -/
example : lookAt (RState.init.run (demoRefs ++ [.listPop 0])) = .ok (some ⟨2, []⟩, some ⟨1, []⟩, 1, 3) ∧
    lookAt (RState.init.run (demoRefs ++ [.listPop 0, .pop, .pushPlain, .store 0, .pushPlain])) = .ok (some ⟨1, []⟩, none, 0, 3) := by
  decide +kernel

end Yasl
