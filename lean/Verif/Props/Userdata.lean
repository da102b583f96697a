import Verif.Proofs.Userdata
import Verif.Props.RefCount
set_option autoImplicit false
/-! # C120 userdata, metatables and destructors -/
namespace Yasl

/-- **C120** (part; `mt.get` only where it is safe, see `C120_getmt_counterexample`): no operation uses a freed object. -/
theorem C120_safe_partial (s : UState) (H : s.Hist) (op : UOp) (sg : op = .getMt → s.SafeGet) : s.step op = .bad ∨ ∃ s', s.step op = .ok s' := by
  rcases ustep_safe H.inv op sg with e | ⟨s', e, _⟩
  · exact .inl e
  · exact .inr ⟨s', e⟩

theorem unreached_ring {s : UState} (I : UInv s) {a : Nat} (lv : s.heap.Live a) (nr : ¬ s.Reach a) : s.heap.BelowCycle a := by
  refine below_cycle (n := s.heap.next) (S := fun a => s.heap.Live a ∧ ¬ s.Reach a) (fun a h => ?_) (fun a h => ?_) ⟨lv, nr⟩
  · obtain ⟨⟨c, ec⟩, _⟩ := h; exact I.bal.live_lt ec
  · obtain ⟨⟨c, ec⟩, nr⟩ := h
    have p := I.nz a c ec
    have hs := I.bal.sum a
    have h0 : (s.slots ++ s.roots).count (some a) = 0 := by
      refine List.count_eq_zero.2 fun m => nr ?_
      rcases List.mem_append.1 m with m | m
      · exact .slot m
      · exact .root m
    rw [h0, Nat.zero_add, RHeap.refsOf, ec] at hs
    obtain ⟨i, hi, hne⟩ := Finset.exists_ne_zero_of_sum_ne_zero (show ∑ i ∈ Finset.range s.heap.next \ ∅, s.heap.holds i a ≠ 0 by dsimp only at hs; omega)
    unfold RHeap.holds at hne
    cases ei : s.heap.cell i with
    | none => rw [ei] at hne; exact absurd rfl hne
    | some ci =>
      rw [ei] at hne
      have m : some a ∈ ci.items := List.count_pos_iff.1 (Nat.pos_of_ne_zero hne)
      exact ⟨i, ⟨⟨ci, ei⟩, fun r => nr (.held r ⟨ci, ei, m⟩)⟩, ⟨ci, ei, m⟩⟩

/-- **C120** (part): at any time the destructors that were called are those of the objects that are gone, each called once; never that of an object the
program or the host can get at; and that of an object that cannot be got at has been called, unless a cycle of objects holds it. -/
theorem C120_destructor_partial (s : UState) (H : s.Hist) :
    s.log.Nodup ∧ (∀ a, a ∈ s.log ↔ a < s.heap.next ∧ ¬ s.heap.Live a) ∧ (∀ a, s.Reach a → s.heap.Live a ∧ a ∉ s.log) ∧
    ∀ a, a < s.heap.next → ¬ s.Reach a → ¬ s.heap.BelowCycle a → a ∈ s.log := by
  have I := H.inv
  have hl : ∀ a, a ∈ s.log ↔ a < s.heap.next ∧ ¬ s.heap.Live a := fun a => by
    rw [I.log.2]
    refine and_congr_right fun _ => ?_
    constructor
    · rintro e ⟨c, ec⟩; rw [e] at ec; cases ec
    · intro nl
      by_contra h
      exact nl (Option.ne_none_iff_exists'.1 h)
  refine ⟨I.log.1, hl, fun a r => ⟨I.reach_live r, fun m => ((hl a).1 m).2 (I.reach_live r)⟩, fun a la nr nc => ?_⟩
  rw [hl]
  exact ⟨la, fun lv => nc (unreached_ring I lv nr)⟩

/-- **C120** (part): the metatable of an object that is there is there, as well as everything else the object holds. -/
theorem C120_metatable_partial (s : UState) (H : s.Hist) (a m : Nat) (h : s.heap.Holds a m) : s.heap.Live m ∧ m ∉ s.log := by
  obtain ⟨c, ec, hm⟩ := h
  have lv := H.inv.bal.item_live ec (by simp) hm
  exact ⟨lv, fun hm => ((C120_destructor_partial s H).2.1 m |>.1 hm).2 lv⟩

/-- **C120** (part): `YASL_delstate` succeeds; after it the destructor of each object made was called exactly once, but for objects below a cycle, and that
of no object more than once. -/
theorem C120_delete_partial (s : UState) (H : s.Hist) :
    ∃ h l, s.delete = .ok (h, l) ∧ l.Nodup ∧ (∀ a ∈ l, a < s.heap.next) ∧ ∀ a, a < s.heap.next → ¬ s.heap.BelowCycle a → l.count a = 1 := by
  have I := H.inv
  have B0 : Bal ∅ s.heap ((s.slots ++ s.roots.drop 2 ++ s.roots.take 2) ++ []) := by
    refine I.bal.congr fun x => ?_
    conv_rhs => rw [← List.take_append_drop 2 s.roots]
    simp only [List.count_append, List.append_nil]
    omega
  obtain ⟨h, l, e, B, S, D, _⟩ := decLogAll_spec (decLog_spec s.heap.next) _ (fun _ => False) ∅ s.heap s.log [] B0 (by intro a ha; simp at ha) (posSet_le _)
    (fun _ hf => hf.elim)
  have L := D.logged S I.log I.bal.fresh
  refine ⟨h, l, e, L.1, fun a m => by rw [← S.next]; exact ((L.2 a).1 m).1, fun a la nc => ?_⟩
  rw [List.count_eq_one_of_mem L.1]
  rw [L.2, S.next]
  refine ⟨la, ?_⟩
  by_contra hh
  obtain ⟨c, ec⟩ := Option.ne_none_iff_exists'.1 hh
  have I2 : RInv [] ⟨h, List.replicate 1024 none, 0, []⟩ := by
    refine ⟨B.congr fun x => ?_, List.length_replicate .., Nat.zero_le _, I.nz.shr S⟩
    rw [List.count_append, count_none]; rfl
  have nr : ∀ (x : RState) (b : Nat), x.slots = List.replicate 1024 none → x.loops = [] → ¬ x.Reach b := by
    intro x b h1 h2 r
    induction r with
    | slot m => rw [h1] at m; have := (List.mem_replicate.1 m).2; cases this
    | loop m => rw [h2] at m; cases m
    | held _ _ ih => exact ih
  obtain ⟨b, cb, rb⟩ := unreached_below_cycle I2 ⟨c, ec⟩ (nr _ a rfl rfl)
  refine nc ?_
  have mono : ∀ x y, h.Holds x y → s.heap.Holds x y := by
    rintro x y ⟨cx, ex, m⟩
    obtain ⟨c0, f0, f1, _⟩ := S.some_inv ex
    exact ⟨c0, f0, f1 ▸ m⟩
  exact ⟨b, Relation.TransGen.mono mono b b cb, Relation.ReflTransGen.mono mono b a rb⟩

/-- **C120 is false** of objects on a cycle (a table that is its own metatable, a userdata held by its metatable, …): their destructors are never called,
not even by `YASL_delstate`. -/
theorem C120_cycle_counterexample (s : UState) (H : s.Hist) (a : Nat) (c : s.heap.Cyclic a) (h : RHeap) (l : List Nat) (e : s.delete = .ok (h, l)) : a ∉ l := by
  have I := H.inv
  have B0 : Bal ∅ s.heap ((s.slots ++ s.roots.drop 2 ++ s.roots.take 2) ++ []) := by
    refine I.bal.congr fun x => ?_
    conv_rhs => rw [← List.take_append_drop 2 s.roots]
    simp only [List.count_append, List.append_nil]
    omega
  have G : Ring s.heap.Cyclic ∅ s.heap := by
    intro x cx
    obtain ⟨b, hb, hbx⟩ := Relation.TransGen.tail'_iff.1 cx
    have lx : ∃ c, s.heap.cell x = some c := by
      obtain ⟨c, ec, m⟩ := hbx
      exact I.bal.item_live ec (by simp) m
    refine ⟨by simp, lx, b, ?_, hbx⟩
    exact Relation.TransGen.head' hbx hb
  obtain ⟨h', l', e', B, S, D, K⟩ := decLogAll_spec (decLog_spec s.heap.next) _ _ ∅ s.heap s.log [] B0 (by intro a ha; simp at ha) (posSet_le _) G
  have e2 : s.delete = .ok (h', l') := e'
  rw [e2] at e; cases e
  intro m
  obtain ⟨c', ec'⟩ := K a c
  have := (((D.logged S I.log I.bal.fresh).2 a).1 m).2
  rw [ec'] at this; cases this

/-- **C120 is false** of `mt.get`: if the stack has the only reference to the object, and the object the only one to its metatable, then the object, and with
it the metatable, is freed before the metatable is pushed. -/
theorem C120_getmt_counterexample (s : UState) (H : s.Hist) (ht : 1 ≤ s.top) (a m : Nat) (c cm : Cell) (ea : s.slots[s.top - 1]? = some (some a))
    (ec : s.heap.cell a = some c) (r1 : c.refs = 1) (em : c.items.head? = some (some m)) (ecm : s.heap.cell m = some cm) (r2 : cm.refs = 1) :
    s.step .getMt = .uaf := by
  have I := H.inv
  have htop := I.top
  simp only [UState.step]
  rw [if_pos ht]
  have eo : s.obj (s.top - 1) = some (a, c) := by simp [UState.obj, ea, ec]
  rw [eo]; dsimp only
  cases hit : c.items with
  | nil => rw [hit] at em; cases em
  | cons mt rest =>
    rw [hit] at em; cases em
    dsimp only
    unfold UState.push
    dsimp only
    rw [if_neg (by omega), ea]; dsimp only
    obtain ⟨h1, l1, e1, _, B1, S1, _⟩ := decLog_ok (v := some a) (R := s.slots.eraseIdx (s.top - 1) ++ s.roots) s.log
      (I.bal.perm (by simpa using (perm_eraseIdx ea).append_right s.roots)) I.log
    have hle : ∀ x, ∑ i ∈ Finset.range h1.next \ ∅, h1.holds i x ≤ ∑ i ∈ Finset.range s.heap.next \ ∅, s.heap.holds i x := fun x => by
      rw [S1.next]; exact Finset.sum_le_sum fun i _ => S1.holds_le i x
    have hcnt : ∀ x, (s.slots ++ s.roots).count (some x) = (s.slots.eraseIdx (s.top - 1) ++ s.roots).count (some x) + [some a].count (some x) := fun x => by
      simp only [List.count_append, count_eraseIdx_add ea (some x)]; omega
    have za : h1.refsOf a = 0 := by
      have h1s := B1.sum a
      have h0s := I.bal.sum a
      rw [hcnt a, RHeap.refsOf, ec] at h0s
      have := hle a
      simp at h0s
      simp at h1s this
      omega
    have dead : ∀ x, h1.refsOf x = 0 → h1.cell x = none := by
      intro x z
      by_contra hh
      obtain ⟨cx, ex⟩ := Option.ne_none_iff_exists'.1 hh
      have := I.nz.shr S1 x cx ex
      rw [RHeap.refsOf, ex] at z
      dsimp only at z; omega
    have ca := dead a za
    have zb : h1.refsOf m = 0 := by
      have h1s := B1.sum m
      have h0s := I.bal.sum m
      rw [hcnt m, RHeap.refsOf, ecm] at h0s
      have ma : a ∈ Finset.range s.heap.next \ ∅ := by simp [I.bal.live_lt ec]
      have hpos : 1 ≤ s.heap.holds a m := by
        simp only [RHeap.holds, ec, hit]; simp
      have ha0 : h1.holds a m = 0 := by simp [RHeap.holds, ca]
      rw [← Finset.add_sum_erase _ _ ma] at h0s
      rw [S1.next, ← Finset.add_sum_erase _ _ ma, ha0] at h1s
      have hle2 : ∑ i ∈ (Finset.range s.heap.next \ ∅).erase a, h1.holds i m ≤ ∑ i ∈ (Finset.range s.heap.next \ ∅).erase a, s.heap.holds i m :=
        Finset.sum_le_sum fun i _ => S1.holds_le i m
      dsimp only at h0s
      omega
    rw [e1]
    show (incRef h1 (some m)).bind _ = _
    rw [incRef, dead m zb]; rfl

theorem UState.Hist.run : ∀ {ops : List UOp} {s s' : UState}, s.Hist → (∀ op ∈ ops, op ≠ .getMt) → s.run ops = .ok s' → s'.Hist := by
  intro ops
  induction ops with
  | nil => intro s s' H _ e; cases e; exact H
  | cons op ops ih =>
    intro s s' H ng e
    cases g : s.step op with
    | ok s1 =>
      rw [UState.run, g] at e
      exact ih (.step op H (fun ho => absurd ho (ng op (by simp))) g) (fun o ho => ng o (by simp [ho])) e
    | uaf => rw [UState.run, g] at e; cases e
    | fuel => rw [UState.run, g] at e; cases e
    | bad => rw [UState.run, g] at e; cases e

/-- A userdata (2) gets a table (3) as its metatable, which is registered; the userdata is overwritten on the stack: its destructor is called and the table is
left with one reference. -/
def demoUd : List UOp := [.newUd, .new true, .load 1, .register, .setMt, .plain, .store 0, .plain, .plain]

/-- A table with a metatable of its own, both made on the spot. -/
def demoTemp : List UOp := [.new true, .new true, .setMt, .plain, .pop]

/-- A table that is its own metatable. -/
def demoSelf : List UOp := [.new true, .load 0, .setMt]

/-- The cells of objects 2 and 3, the top and the destructors called (for the examples). -/
def lookUd (r : RcRes UState) : RcRes (Option Cell × Option Cell × Nat × List Nat) := r.bind fun s => .ok (s.heap.cell 2, s.heap.cell 3, s.top, s.log)

/-- The destructors called by the end (for the examples). -/
def lookEnd (r : RcRes UState) : RcRes (List Nat) := r.bind fun s => s.delete.bind fun x => .ok x.2

/-- The theorems on given histories; at the end the registered metatable and the built-in ones go. -/
example : lookUd (UState.init.run demoUd) = .ok (none, some ⟨1, [some 1]⟩, 3, [2]) := by decide +kernel
example : lookEnd (UState.init.run demoUd) = .ok [2, 3, 0, 1] := by decide +kernel
example : lookUd (UState.init.run demoTemp) = .ok (some ⟨1, [some 3]⟩, some ⟨1, [some 1]⟩, 1, []) := by decide +kernel
example : lookUd (UState.init.run (demoTemp ++ [.getMt])) = .uaf := by decide +kernel
example : lookUd (UState.init.run demoSelf) = .ok (some ⟨3, [some 2]⟩, none, 1, []) := by decide +kernel
example : lookEnd (UState.init.run demoSelf) = .ok [0, 1] := by decide +kernel

end Yasl
