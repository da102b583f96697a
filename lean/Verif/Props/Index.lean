import Verif.Props.Globals
import Verif.Model.Index
import Verif.Spec.Index
set_option autoImplicit false
/-!
# C68 — a table returns its own entries

`t[k] = v` and `t[k]` on a table as the language makes them, with the metatable of the built-in methods.
-/
namespace Yasl

theorem tableMethodOps_ok : (∀ op ∈ tableMethodOps, op.IsSet) ∧ (∀ op ∈ tableMethodOps, op.OK) := by
  have h : ∀ op ∈ tableMethodOps, op.IsSet ∧ op.OK := by
    intro op ho
    simp only [tableMethodOps, List.mem_map] at ho
    obtain ⟨p, -, rfl⟩ := ho
    exact ⟨trivial, .inl trivial, by simp [LiveVal]⟩
  exact ⟨fun op ho => (h op ho).1, fun op ho => (h op ho).2⟩

/-- the metatable exists, and looking something up in it gives the method of that name -/
theorem tableMt_search (f : Nat) (hf : 2 ^ 33 ≤ f) :
    ∃ mt, tableMt f = some mt ∧ ∀ k, GoodKey k → mt.search f k = some ((specOf tableMethodOps k).getD .end_) :=
  C01_assignments_partial tableMethodOps tableMethodOps_ok.1 tableMethodOps_ok.2 (by decide) f hf

/-- a value that is not the name of a method is not in the metatable -/
theorem specOf_methods_none {k : Val} (h : ∀ n ∈ tableMethodNames, k ≠ .str n) : specOf tableMethodOps k = none := by
  have key : ∀ (l : List (List Byte)) (j : Nat) (m : Val → Option Val), (∀ n ∈ l, k ≠ .str n) → m k = none →
      specFrom m ((l.zipIdx j).map fun p => TOp.set (.str p.1) (.ref .cfn (100 + p.2))) k = none := by
    intro l
    induction l with
    | nil => intro j m _ hm; exact hm
    | cons n l ih =>
      intro j m hl hm
      simp only [List.zipIdx_cons, List.map_cons, specFrom, List.foldl_cons]
      refine ih (j + 1) _ (fun x hx => hl x (by simp [hx])) ?_
      have : ¬ k = .str n := hl n (by simp)
      simp [TOp.apply, this, hm]
  exact key tableMethodNames 0 _ h rfl

theorem Val.tag_ne_end {v : Val} (h : v ≠ .end_) : v.tag ≠ .end_ := by
  intro ht
  cases v <;> simp [Val.tag] at ht
  exact h rfl

theorem notMethod_iff (k : Val) : NotMethod k ↔ ∀ n ∈ tableMethodNames, k ≠ .str n := by
  have e : tableMethodNames = tableMethodsSpec.map ascii := by decide
  rw [e]
  constructor
  · intro h n hn
    obtain ⟨s, hs, rfl⟩ := List.mem_map.1 hn
    exact h s hs
  · intro h s hs
    exact h _ (List.mem_map_of_mem hs)

/-- C68, what holds: for every table that is a history of up to 2^29 assignments, and every key other than the names of table methods (and `undef`, NaN,
−0.0, see C09 and C01), `t[k]` is the last value assigned, or `undef` if there is none.
Missing from the full property: keys that are names of methods, where it is false (`C68_shadowed`). -/
theorem C68_own_entry_partial (ops : List TOp) (hset : ∀ op ∈ ops, op.IsSet) (hok : ∀ op ∈ ops, op.OK) (hlen : ops.length ≤ 2 ^ 29)
    (f : Nat) (hf : 2 ^ 33 ≤ f) (k : Val) (hk : GoodKey k) (hn : NotMethod k) :
    ∃ t mt, Table.new.run f ops = some t ∧ tableMt f = some mt ∧
      indexTable f (some mt) t k = some (some ((specOf ops k).getD .undef)) := by
  obtain ⟨t, h1, h2⟩ := C01_assignments_partial ops hset hok hlen f hf
  obtain ⟨mt, h3, h4⟩ := tableMt_search f hf
  refine ⟨t, mt, h1, h3, ?_⟩
  have e1 : mt.search f k = some .end_ := by rw [h4 k hk, specOf_methods_none ((notMethod_iff k).1 hn)]; rfl
  have e2 : mt.search f (.str (ascii "__get")) = some (.ref .cfn addrGet) := by
    rw [h4 (.str _) trivial]
    have : specOf tableMethodOps (.str (ascii "__get")) = some (.ref .cfn addrGet) := by decide +kernel
    rw [this]; rfl
  have e3 : vmGet f (some mt) (some t) k = some (.callGet (.ref .cfn addrGet)) := by
    simp [vmGet, lookup2, e1, e2, Val.tag]
  have e4 : t.get f k = some ((specOf ops k).getD .undef) := by
    rw [Table.get, h2 k hk]
    rcases ho : specOf ops k with _ | v
    · rfl
    · have hv : v ≠ .end_ := by
        have hlive : ∀ (l : List TOp) (m : Val → Option Val), (∀ op ∈ l, op.OK) → (∀ v, m k = some v → v ≠ .end_) →
            ∀ v, specFrom m l k = some v → v ≠ .end_ := by
          intro l
          induction l with
          | nil => intro m _ hm v hv; exact hm v hv
          | cons op l ih =>
            intro m hl hm v hv
            refine ih (op.apply m) (fun o ho => hl o (by simp [ho])) ?_ v hv
            intro v hv
            have hop := hl op (by simp)
            cases op with
            | set k' v' =>
              simp only [TOp.apply] at hv
              split at hv
              · cases hv; exact hop.2.2
              · exact hm v hv
            | rm k' =>
              simp only [TOp.apply] at hv
              split at hv
              · simp at hv
              · exact hm v hv
        exact hlive ops _ hok (by simp) v ho
      simp [hv]
  simp [indexTable, e3, e4]

/-- C68: the assignment itself goes through `__set`, and then the index expression gives the value. -/
theorem C68_set_then_get_partial (ops : List TOp) (hset : ∀ op ∈ ops, op.IsSet) (hok : ∀ op ∈ ops, op.OK) (hlen : ops.length + 1 ≤ 2 ^ 29)
    (f : Nat) (hf : 2 ^ 33 ≤ f) (k v : Val) (hk : GoodKey k) (hv : LiveVal v) (hn : NotMethod k) :
    ∃ t mt t', Table.new.run f ops = some t ∧ tableMt f = some mt ∧ setIndex f (some mt) t k v = some (some (.ok t')) ∧
      indexTable f (some mt) t' k = some (some v) := by
  obtain ⟨mt, h3, h4⟩ := tableMt_search f hf
  obtain ⟨t, h1, -⟩ := C01_assignments_partial ops hset hok (by omega) f hf
  have hs' : ∀ op ∈ ops ++ [TOp.set k v], op.IsSet := by
    intro op ho
    rcases List.mem_append.1 ho with ho | ho
    · exact hset op ho
    · rw [List.mem_singleton.1 ho]; trivial
  have hk' : ∀ op ∈ ops ++ [TOp.set k v], op.OK := by
    intro op ho
    rcases List.mem_append.1 ho with ho | ho
    · exact hok op ho
    · rw [List.mem_singleton.1 ho]; exact ⟨.inl hk, hv⟩
  obtain ⟨t', mt', h5, h6, h7⟩ := C68_own_entry_partial _ hs' hk' (by simpa using hlen) f hf k hk hn
  rw [h3] at h6
  cases h6
  refine ⟨t, mt, t', h1, h3, ?_, ?_⟩
  · rw [run_append, h1] at h5
    have h8 : (t.insert f k v).map Prod.fst = some t' := by simpa [Table.run, Table.step] using h5
    have e1 : mt.search f (.str (ascii "__set")) = some (.ref .cfn addrSet) := by
      rw [h4 (.str _) trivial]
      have : specOf tableMethodOps (.str (ascii "__set")) = some (.ref .cfn addrSet) := by decide +kernel
      rw [this]; rfl
    obtain ⟨⟨t'', b⟩, h9, rfl⟩ := Option.map_eq_some_iff.1 h8
    have hb : b = true := by
      simp only [Table.insert, hk.hashable, if_true, Option.map_eq_some_iff] at h9
      obtain ⟨_, -, e⟩ := h9
      cases e; rfl
    subst hb
    simp [setIndex, e1, Table.set, hv.1, h9]
  · rw [h7]
    simp [specOf, specFrom, TOp.apply, hk.hashable]

/-- C68 fails for every name of a table method: whatever the table has, `t['keys']`, `t['remove']`, … is the method. -/
theorem C68_shadowed (t : Table) (i : Nat) (n : String) (hi : tableMethodsSpec[i]? = some n) (f : Nat) (hf : 2 ^ 33 ≤ f) :
    ∃ mt, tableMt f = some mt ∧ indexTable f (some mt) t (nameKey n) = some (some (.ref .cfn (100 + i))) := by
  obtain ⟨mt, h3, h4⟩ := tableMt_search f hf
  refine ⟨mt, h3, ?_⟩
  have hl : i < 11 := (List.getElem?_eq_some_iff.1 hi).1
  have hall : ∀ j : Fin 11, (tableMethodsSpec[j.val]?).bind (fun s => specOf tableMethodOps (nameKey s)) = some (.ref .cfn (100 + j.val)) := by decide +kernel
  have hj := hall ⟨i, hl⟩
  simp only [hi, Option.bind_some] at hj
  have e1 : mt.search f (nameKey n) = some (.ref .cfn (100 + i)) := by
    rw [h4 (nameKey n) trivial, hj]; rfl
  simp [indexTable, vmGet, lookup2, e1, Val.tag]

/-- with a user's metatable: an entry of the metatable wins over the table's own; without one and without `__get`, the table's own entry is found -/
theorem C68_metatable (f : Nat) (mt t : Table) (k : Val) :
    (∀ v, mt.search f k = some v → v ≠ .end_ → indexTable f (some mt) t k = some (some v)) ∧
    (mt.search f k = some .end_ → mt.search f (.str (ascii "__get")) = some .end_ →
      ∀ v, t.search f k = some v → v ≠ .end_ → indexTable f (some mt) t k = some (some v)) ∧
    (∀ v, t.search f k = some v → v ≠ .end_ → indexTable f none t k = some (some v)) := by
  refine ⟨fun v h hv => ?_, fun h1 h2 v h hv => ?_, fun v h hv => ?_⟩
  · simp [indexTable, vmGet, lookup2, h, Val.tag_ne_end hv]
  · have e : Val.end_.tag = .end_ := rfl
    simp [indexTable, vmGet, lookup2, h1, h2, h, Val.tag_ne_end hv, e]
  · simp [indexTable, vmGet, h, Val.tag_ne_end hv]

/-- the hypotheses are met: an integer key and a name that is no method's, after an assignment -/
example : NotMethod (.str (ascii "key")) ∧ GoodKey (.str (ascii "key")) :=
  ⟨(by decide : ∀ s ∈ tableMethodsSpec, Val.str (ascii "key") ≠ nameKey s), trivial⟩
example : ((tableMt 100).bind fun mt => (Table.new.run 100 [.set (.str (ascii "keys")) (.int 1), .set (.str (ascii "key")) (.int 2)]).bind fun t =>
    (indexTable 100 (some mt) t (.str (ascii "keys"))).bind fun a => (indexTable 100 (some mt) t (.str (ascii "key"))).map fun b => (a, b)) =
    some (some (.ref .cfn 102), some (.int 2)) := by decide +kernel

end Yasl
