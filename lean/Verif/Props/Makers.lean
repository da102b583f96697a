import Verif.Model.Makers
import Verif.Proofs.World
import Verif.Props.Metatable
import Verif.Props.Index
import Verif.Props.Table
set_option autoImplicit false
/-!
# C122 — lists and tables have the methods of their type
-/
namespace Yasl

/-- What is known after a history. -/
structure ObjInv (f : Nat) (addr : Tag → Nat) (s : Objects) : Prop where
  builtin : s.metas.builtin = builtinTables addr
  tabs : ∀ t ∈ builtinTags, s.metas.tab (addr t) = ((Table.new.run f (builtinOps (builtinsOfTag t))).getD Table.new)
  used : ∀ t ∈ builtinTags, s.used (addr t) = true

theorem find_tag {addr : Tag → Nat} (hi : ∀ t ∈ builtinTags, ∀ u ∈ builtinTags, addr t = addr u → t = u) {t : Tag} (ht : t ∈ builtinTags) :
    (builtinTags.find? fun u => decide (addr u = addr t)) = some t := by
  rcases h : builtinTags.find? fun u => decide (addr u = addr t) with _ | u
  · exact absurd (List.find?_eq_none.1 h t ht) (by simp)
  · have h1 := List.find?_some h
    have h2 := List.mem_of_find?_eq_some h
    rw [hi u h2 t ht (by simpa using h1)]

theorem objInv_initial (f : Nat) (addr : Tag → Nat) (hi : ∀ t ∈ builtinTags, ∀ u ∈ builtinTags, addr t = addr u → t = u) : ObjInv f addr (.initial f addr) where
  builtin := rfl
  tabs := by intro t ht; simp only [Objects.initial]; rw [find_tag hi ht]; rfl
  used := by intro t ht; simp only [Objects.initial]; rw [find_tag hi ht]; rfl

theorem objInv_step {f : Nat} {addr : Tag → Nat} {s s' : Objects} {o : ObjOp} (h : ObjInv f addr s) (e : s.step addr o = some s') : ObjInv f addr s' := by
  cases o with
  | make k a t =>
    rw [Objects.step] at e
    split at e
    · cases e
    · rename_i hu
      cases e
      refine ⟨h.builtin, fun u hm => ?_, fun u hm => by simp [h.used u hm]⟩
      have hne : addr u ≠ a := by rintro rfl; exact hu (h.used u hm)
      show (if addr u = a then t else s.metas.tab (addr u)) = _
      rw [if_neg hne, h.tabs u hm]
  | change a t =>
    rw [Objects.step] at e
    split at e
    · rename_i hu
      cases e
      refine ⟨h.builtin, fun u hm => ?_, h.used⟩
      have hne : addr u ≠ a := fun hx => by
        have := List.find?_eq_none.1 hu.2 u hm
        simp [hx] at this
      show (if addr u = a then t else s.metas.tab (addr u)) = _
      rw [if_neg hne, h.tabs u hm]
    · cases e
  | setmt a b =>
    rw [Objects.step] at e
    split at e
    · cases e
      exact ⟨h.builtin, h.tabs, h.used⟩
    · cases e

theorem objInv_run {f : Nat} {addr : Tag → Nat} (ops : List ObjOp) {s s' : Objects} (h : ObjInv f addr s) (e : s.run addr ops = some s') : ObjInv f addr s' := by
  induction ops generalizing s with
  | nil => cases e; exact h
  | cons o os ih =>
    rw [Objects.run, Option.bind_eq_some_iff] at e
    obtain ⟨s1, h1, h2⟩ := e
    exact ih (objInv_step h h1) h2

/-- The metatable of an object that is in use is changed by `mt.set` on it only. -/
theorem mt_kept {addr : Tag → Nat} (ops : List ObjOp) {s s' : Objects} {a : Nat} (hu : s.used a = true) (e : s.run addr ops = some s')
    (hn : ∀ b, ObjOp.setmt a b ∉ ops) : s'.metas.mt a = s.metas.mt a ∧ s'.used a = true := by
  induction ops generalizing s with
  | nil => cases e; exact ⟨rfl, hu⟩
  | cons o os ih =>
    rw [Objects.run, Option.bind_eq_some_iff] at e
    obtain ⟨s1, h1, h2⟩ := e
    have hn' : ∀ b, ObjOp.setmt a b ∉ os := fun b hb => hn b (List.mem_cons_of_mem _ hb)
    have h3 : s1.metas.mt a = s.metas.mt a ∧ s1.used a = true := by
      cases o with
      | make k c t =>
        rw [Objects.step] at h1
        split at h1
        · cases h1
        · rename_i hc
          cases h1
          have hne : a ≠ c := by rintro rfl; exact hc hu
          exact ⟨by show (if a = c then _ else _) = _; rw [if_neg hne], by simp [hu]⟩
      | change c t =>
        rw [Objects.step] at h1
        split at h1
        · cases h1; exact ⟨rfl, hu⟩
        · cases h1
      | setmt c b =>
        rw [Objects.step] at h1
        split at h1
        · cases h1
          have hne : a ≠ c := by rintro rfl; exact hn b List.mem_cons_self
          exact ⟨by show (if a = c then _ else _) = _; rw [if_neg hne], hu⟩
        · cases h1
    obtain ⟨h4, h5⟩ := ih h3.2 h2 hn'
    exact ⟨h4.trans h3.1, h5⟩

theorem objects_run_append (addr : Tag → Nat) (xs ys : List ObjOp) (s : Objects) : s.run addr (xs ++ ys) = (s.run addr xs).bind fun s => s.run addr ys := by
  induction xs generalizing s with
  | nil => rfl
  | cons o os ih =>
    show (s.step addr o).bind _ = ((s.step addr o).bind _).bind _
    rw [Option.bind_assoc]
    congr 1; funext s; exact ih s

/-- The metatable of an object that was made by `k`, and never given to `mt.set`. -/
theorem mt_made {f : Nat} {addr : Tag → Nat} (hi : ∀ t ∈ builtinTags, ∀ u ∈ builtinTags, addr t = addr u → t = u) {ops : List ObjOp} {s : Objects}
    (e : (Objects.initial f addr).run addr ops = some s) {k : Maker} {a : Nat} {t : Table} (hm : ObjOp.make k a t ∈ ops) (hn : ∀ b, ObjOp.setmt a b ∉ ops) :
    s.metas.mt a = k.metatable (builtinTables addr) := by
  obtain ⟨xs, ys, rfl⟩ := List.append_of_mem hm
  rw [objects_run_append, Option.bind_eq_some_iff] at e
  obtain ⟨s1, h1, h2⟩ := e
  rw [Objects.run, Option.bind_eq_some_iff] at h2
  obtain ⟨s2, h3, h4⟩ := h2
  have i1 := objInv_run xs (objInv_initial f addr hi) h1
  rw [Objects.step] at h3
  split at h3
  · cases h3
  · cases h3
    obtain ⟨h5, -⟩ := mt_kept ys (a := a) (by simp) h4 fun b hb => hn b (by simp [hb])
    rw [h5, ← i1.builtin]
    show (if a = a then _ else _) = _
    rw [if_pos rfl]

/-- C122, what holds: after any history, a list or table made anywhere but by `copy` of a table, and not given to `mt.set`, answers to each name of a method of its
type (`methodsOf`, C107) with this method, and to no other name. -/
theorem C122_methods_partial (f : Nat) (hf : 2 ^ 33 ≤ f) (addr : Tag → Nat) (hi : ∀ t ∈ builtinTags, ∀ u ∈ builtinTags, addr t = addr u → t = u)
    (ops : List ObjOp) (s : Objects) (e : (Objects.initial f addr).run addr ops = some s) (k : Maker) (a : Nat) (t : Table) (hm : ObjOp.make k a t ∈ ops)
    (hn : ∀ b, ObjOp.setmt a b ∉ ops) (hk : k ≠ .tableCopy) (name : List Byte) :
    match methodOf (.ref k.kind a) (.str name) with
    | some m => s.metas.method f (.ref k.kind a) name m.val
    | none => s.metas.noMethod f (.ref k.kind a) name := by
  have inv := objInv_run ops (objInv_initial f addr hi) e
  have h1 := mt_made hi e hm hn
  have h2 : k.metatable (builtinTables addr) = some (addr (.ref k.kind)) := by cases k <;> first | rfl | exact absurd rfl hk
  have h3 : s.metas.of (.ref k.kind a) = .ok (some (addr (.ref k.kind))) := by
    rw [Metas.of]
    have : ownMt (.ref k.kind a) = some a := by cases k <;> rfl
    rw [this]; dsimp only; rw [h1, h2]
  have h4 : Tag.ref k.kind ∈ builtinTags := by cases k <;> decide
  have h5 := inv.tabs _ h4
  have h6 : builtinsOf (.ref k.kind a) = .ok (builtinsOfTag (.ref k.kind)) := by cases k <;> rfl
  obtain ⟨mt, e1, hs⟩ := mtOf_spec hf h6
  rw [mtOf, h6] at e1
  dsimp only at e1
  rcases h7 : Table.new.run f (builtinOps (builtinsOfTag (.ref k.kind))) with _ | t'
  · rw [h7] at e1; cases e1
  rw [h7] at e1 h5
  cases e1
  have h8 := hs (.str name) (Or.inl trivial)
  rw [Option.getD_some] at h5
  rcases h9 : methodOf (.ref k.kind a) (.str name) with _ | m
  · rw [h9] at h8
    exact Or.inr ⟨_, h3, by rw [h5]; exact h8⟩
  · rw [h9] at h8
    exact ⟨_, h3, by rw [h5]; exact h8, by simp [Meth.val]⟩

/-- The same for the result of `copy` of a table: it has no methods at all. -/
theorem C122_copy_noMethod (f : Nat) (addr : Tag → Nat) (hi : ∀ t ∈ builtinTags, ∀ u ∈ builtinTags, addr t = addr u → t = u)
    (ops : List ObjOp) (s : Objects) (e : (Objects.initial f addr).run addr ops = some s) (a : Nat) (t : Table) (hm : ObjOp.make .tableCopy a t ∈ ops)
    (hn : ∀ b, ObjOp.setmt a b ∉ ops) (g : Nat) (name : List Byte) : s.metas.noMethod g (.ref .table a) name :=
  Or.inl (by rw [Metas.of]; dsimp only [ownMt]; rw [mt_made hi e hm hn]; rfl)

/-- C122 is false for the copy of a table, in every history and whatever the table contains: `len`, `echo` and `~`, assignments to elements, and operators are type errors,
and so is reading of a key that the table does not have (for a table made otherwise, this is `undef`). -/
theorem C122_copy_counterexample (f : Nat) (addr : Tag → Nat) (hi : ∀ t ∈ builtinTags, ∀ u ∈ builtinTags, addr t = addr u → t = u)
    (ops : List ObjOp) (s : Objects) (e : (Objects.initial f addr).run addr ops = some s) (a : Nat) (t : Table) (hm : ObjOp.make .tableCopy a t ∈ ops)
    (hn : ∀ b, ObjOp.setmt a b ∉ ops)
    (callee : Val → Callee) (n0 : Int) (m : Mach) (r : Regions) (h : m.Rep n0 r) (l : List Val) (hcalls : r.calls.length < 1000) (hroom : r.values.length < 1024)
    (g : Nat) :
    (∀ name, r.top = l ++ [.ref .table a] → m.unMethod g s.metas callee name = .typeError) ∧
    (∀ name b, r.top = l ++ [.ref .table a, b] → m.binMethod g s.metas callee name = .typeError) ∧
    (∀ k v, r.top = l ++ [.ref .table a, k, v] → m.setMethod g s.metas callee = .typeError) ∧
    s.metas.of (.ref .table a) = .ok none ∧
    ∀ c k, Table.search g c k = some .end_ → indexTable g none c k = some none := by
  have hno := C122_copy_noMethod f addr hi ops s e a t hm hn g
  refine ⟨fun name ht => ?_, fun name b ht => ?_, fun k v ht => ?_, ?_, fun c k hs => ?_⟩
  · exact (C105_unary callee n0 m r h l _ ht hcalls hroom s.metas g name).2 (hno name)
  · exact (C105_binary callee n0 m r h l _ b ht hcalls hroom s.metas g name).2 (hno name)
  · exact (C105_set callee n0 m r h l _ k v ht hcalls hroom s.metas g).2 (hno _)
  · rw [Metas.of]; dsimp only [ownMt]; rw [mt_made hi e hm hn]; rfl
  · simp [indexTable, vmGet, hs, Val.tag]

/-- C122 is false for the tables that `mt.get` gives for values without a metatable of their own: they have no methods either. -/
theorem C122_builtin_counterexample (f : Nat) (addr : Tag → Nat) (hi : ∀ t ∈ builtinTags, ∀ u ∈ builtinTags, addr t = addr u → t = u)
    (ops : List ObjOp) (s : Objects) (e : (Objects.initial f addr).run addr ops = some s) (t : Tag) (ht : t ∈ builtinTags)
    (hn : ∀ b, ObjOp.setmt (addr t) b ∉ ops) (g : Nat) (name : List Byte) : s.metas.noMethod g (.ref .table (addr t)) name := by
  refine Or.inl ?_
  rw [Metas.of]; dsimp only [ownMt]
  rw [(mt_kept ops ((objInv_initial f addr hi).used t ht) e hn).1]
  rfl

/-! ## A history -/

/-- Addresses for an example. -/
def demoAddr (t : Tag) : Nat := builtinTags.idxOf t

/-- `let t = {}; let l = t->keys(); let c = t->copy(); mt.set(t, {})`. -/
def demoMakes : List ObjOp := [.make .tableLiteral 10 Table.new, .make .tableKeys 11 Table.new, .make .tableCopy 12 Table.new, .make .tableLiteral 13 Table.new,
  .setmt 10 13]

/-- the hypotheses are met: the list of keys has its methods, and the copy has none -/
example : (∀ t ∈ builtinTags, ∀ u ∈ builtinTags, demoAddr t = demoAddr u → t = u) ∧ ((Objects.initial 100 demoAddr).run demoAddr demoMakes).isSome = true ∧
    (∀ b, ObjOp.setmt 11 b ∉ demoMakes) ∧ (∀ b, ObjOp.setmt 12 b ∉ demoMakes) ∧
    (methodOf (.ref .list 11) (.str (ascii "push"))) = some .listPush ∧ (methodOf (.ref .table 12) (.str (ascii "keys"))) = some .tableKeys := by
  refine ⟨by decide +kernel, by decide +kernel, by simp [demoMakes], by simp [demoMakes], by decide +kernel, by decide +kernel⟩

end Yasl
