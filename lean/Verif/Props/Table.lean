import Verif.Proofs.TableTerm
import Verif.Proofs.TableMono
/-!
# C01–C05, C07–C12 — hash tables as finite maps

`specOf ops` (in `Verif.Spec.Table`) is the map denoted by a history of assignments and removals; lookups return `end_`
for "absent".  Fuel bounds the number of loop iterations: a statement for every fuel with result `some` is about every
execution that completes; a statement `= some …` for all large enough fuel says that the execution completes; `= none`
for every fuel says that it does not.
-/
namespace Yasl

/-! ## C01 -/

/-- C01: every history of at most 2^29 assignments completes, and afterwards every lookup completes and returns the last
value assigned to its key, or absence.  Keys are any hashable values other than `undef`, NaN and −0.0 (for those see the
counterexamples below); unhashable keys are refused by the assignment.
Missing from the full property: NaN and −0.0 keys (where it is false), and more than 2^29 assignments (a table with over
2^32 slots, where `attempt * step` in the hash function can wrap around). -/
theorem C01_assignments_partial (ops : List TOp) (hset : ∀ op ∈ ops, op.IsSet) (hok : ∀ op ∈ ops, op.OK)
    (hlen : ops.length ≤ 2 ^ 29) (f : Nat) (hf : 2 ^ 33 ≤ f) :
    ∃ t, Table.new.run f ops = some t ∧
      ∀ k, GoodKey k → t.search f k = some ((specOf ops k).getD .end_) := by
  have hrp : ∀ (m : Val → Option Val) (ops : List TOp), (∀ op ∈ ops, op.IsSet) → removesPresent m ops ∧ removals ops = 0 := by
    intro m ops
    induction ops generalizing m with
    | nil => intro _; exact ⟨trivial, rfl⟩
    | cons op ops ih =>
      intro h
      cases op with
      | set k v =>
        have := ih ((TOp.set k v).apply m) (fun o ho => h o (by simp [ho]))
        exact ⟨this.1, by simpa [removals] using this.2⟩
      | rm k => exact absurd (h (.rm k) (by simp)) (by simp [TOp.IsSet])
  obtain ⟨h1, h2⟩ := hrp (fun _ => none) ops hset
  obtain ⟨t, hr, hg⟩ := run_good (N := 2 ^ 29) (f := f) (le_refl _) (by omega) ops (R := 0) (fun _ => none)
    (new_good _) new_spec.2 hok h1 (by omega) (by simpa [Table.new] using hlen)
  refine ⟨t, hr, fun k hk => ?_⟩
  obtain ⟨r, hs⟩ := search_total hg.inv hg.prime (hg.size32 (le_refl _)) (hg.hasUnused (by omega)) hk (f := f)
    (by have := hg.size32 (le_refl _); omega)
  rw [hs, search_spec hg.inv ((run_spec ops new_spec.1 hok hr).2 _ new_spec.2) hk hs]
  rfl

/-- the hypotheses are met by a history that resizes the table (100 distinct keys) and one with keys of all types -/
example : (∀ op ∈ (List.range 100).map (fun n => TOp.set (.int (BitVec.ofNat 64 n)) (.bool true)), op.IsSet ∧ op.OK) := by
  intro op h
  obtain ⟨n, -, rfl⟩ := List.mem_map.1 h
  exact ⟨trivial, .inl trivial, by simp, by simp⟩
example : (∀ op ∈ [TOp.set (.str [65, 66]) (.int 1), .set (.float 0) (.int 2), .set (.bool true) (.str []),
    .set (.ref .list 3) (.int 5)], op.IsSet ∧ op.OK) := by
  intro op h
  simp only [List.mem_cons, List.not_mem_nil, or_false] at h
  rcases h with rfl | rfl | rfl | rfl
  · exact ⟨trivial, .inl trivial, by simp, by simp⟩
  · exact ⟨trivial, .inl ⟨by decide +kernel, by decide⟩, by simp, by simp⟩
  · exact ⟨trivial, .inl trivial, by simp, by simp⟩
  · exact ⟨trivial, .inr rfl, by simp, by simp⟩
example : ((Table.new.run 200 ((List.range 60).map (fun n => TOp.set (.int (BitVec.ofNat 64 n)) (.bool true)))).map
    fun t => (t.size, t.count)) = some (127, 60) := by decide +kernel

/-- C01 fails for NaN: after `t[nan] = 1` the value cannot be read back, and a second assignment adds a second entry. -/
theorem C01_nan_key_lost :
    ∃ t, Table.new.run 100 [.set (.float 0x7ff8000000000000#64) (.int 1), .set (.float 0x7ff8000000000000#64) (.int 2)] =
      some t ∧ t.search 100 (.float 0x7ff8000000000000#64) = some .end_ ∧ t.length = 2 := by
  refine ⟨_, rfl, ?_, ?_⟩ <;> decide +kernel

/-- C01 fails for −0.0: `0.0 == -0.0`, but after `t[0.0] = 1` there is no value at `t[-0.0]`. -/
theorem C01_neg_zero_key : isEqual (.float 0#64) (.float 0x8000000000000000#64) = true ∧
    ∃ t, Table.new.run 100 [.set (.float 0#64) (.int 1)] = some t ∧
      t.search 100 (.float 0x8000000000000000#64) = some .end_ := by
  refine ⟨by decide +kernel, _, rfl, ?_⟩; decide +kernel

/-! ## C02 -/

/-- C02: for every history of assignments and removals that completes, every lookup that completes gives the value of the
last assignment to that key not followed by a removal, or absence. -/
theorem C02_lookup_correct (ops : List TOp) (hok : ∀ op ∈ ops, op.OK) (f : Nat) (t : Table)
    (hr : Table.new.run f ops = some t) (f' : Nat) (k : Val) (hk : GoodKey k ∨ k.hashable = false) (r : Val)
    (hs : t.search f' k = some r) : r = (if k.hashable then specOf ops k else none).getD .end_ := by
  rcases hk with hk | hk
  · obtain ⟨hi, ha⟩ := run_spec ops new_spec.1 hok hr
    have := search_spec hi (ha _ new_spec.2) hk hs
    simpa [hk.hashable, specOf] using this
  · simp only [Table.search, hk] at hs ⊢
    simp at hs; exact hs.symm

/-- C02: `t[k]` in the language (`__get`) gives the value, or `undef` when absent. -/
theorem C02_get_correct (ops : List TOp) (hok : ∀ op ∈ ops, op.OK) (f : Nat) (t : Table)
    (hr : Table.new.run f ops = some t) (f' : Nat) (k : Val) (hk : GoodKey k) (r : Val)
    (hs : t.get f' k = some r) : r = (specOf ops k).getD .undef := by
  simp only [Table.get, Option.map_eq_some_iff] at hs
  obtain ⟨s, hs, rfl⟩ := hs
  obtain ⟨hi, ha⟩ := run_spec ops new_spec.1 hok hr
  have h1 := search_spec hi (ha _ new_spec.2) hk hs
  have habs : Abs t (specOf ops) := ha _ new_spec.2
  cases hm : specOf ops k with
  | none => rw [show specFrom (fun _ => none) ops k = none from hm] at h1; simp [h1]
  | some v =>
    rw [show specFrom (fun _ => none) ops k = some v from hm] at h1
    have hv := ((habs k v).2 hm)
    have hl : LiveVal v := by
      rcases hi.pair _ hv.2 with he | he | hg
      · exact absurd he (not_special (it := ⟨k, v⟩) hk).1
      · exact absurd he (not_special (it := ⟨k, v⟩) hk).2
      · exact hg.2
    simp only [Option.getD_some] at h1 ⊢
    rw [h1, if_neg hl.2]

example : (∀ op ∈ [TOp.set (.int 3) (.int 1), .rm (.int 3), .rm (.str [97]), .set (.int 3) (.bool false)], op.OK) ∧
    ((Table.new.run 100 [TOp.set (.int 3) (.int 1), .rm (.int 3), .rm (.str [97]), .set (.int 3) (.bool false)]).bind
      (·.search 100 (.int 3))) = some (.bool false) := by
  refine ⟨?_, by decide +kernel⟩
  intro op h
  simp only [List.mem_cons, List.not_mem_nil, or_false] at h
  rcases h with rfl | rfl | rfl | rfl
  · exact ⟨.inl trivial, by simp, by simp⟩
  · exact .inl trivial
  · exact .inl trivial
  · exact ⟨.inl trivial, by simp, by simp⟩

/-! ## C03 -/

/-- C03, the part that holds: histories of at most 2^29 operations with at most 7 removals, each of a present key, complete,
and so do lookups afterwards.  Missing: more removals — where it is false, see `C03_hangs`. -/
theorem C03_terminates_partial (ops : List TOp) (hok : ∀ op ∈ ops, op.OK) (hlen : ops.length ≤ 2 ^ 29)
    (hrem : removals ops ≤ 7) (hpres : removesPresent (fun _ => none) ops) (f : Nat) (hf : 2 ^ 33 ≤ f) :
    ∃ t, Table.new.run f ops = some t ∧ ∀ k, GoodKey k → ∃ r, t.search f k = some r := by
  obtain ⟨t, hr, hg⟩ := run_good (N := 2 ^ 29) (f := f) (le_refl _) (by omega) ops (R := 0) (fun _ => none)
    (new_good _) new_spec.2 hok hpres (by omega) (by simpa [Table.new] using hlen)
  refine ⟨t, hr, fun k hk => ?_⟩
  exact search_total hg.inv hg.prime (hg.size32 (le_refl _)) (hg.hasUnused (by omega)) hk (f := f)
    (by have := hg.size32 (le_refl _); omega)

example : removals [.set (.int 1) (.int 2), .set (.int 2) (.int 2), .rm (.int 1), .rm (.int 2)] ≤ 7 ∧
    removesPresent (fun _ => none) [.set (.int 1) (.int 2), .set (.int 2) (.int 2), .rm (.int 1), .rm (.int 2)] := by
  decide +kernel

/-- C03, one operation in any state: in a table of prime size up to 2^32 reached by any completed history, a lookup
completes as long as one slot was never used. -/
theorem C03_search_terminates_partial (ops : List TOp) (hok : ∀ op ∈ ops, op.OK) (f : Nat) (t : Table)
    (hr : Table.new.run f ops = some t) (hp : t.size.Prime) (hb : t.size ≤ 2 ^ 32) (hu : ∃ it ∈ t.items, it = emptyItem)
    (k : Val) (hk : GoodKey k) : ∃ r, t.search t.size k = some r := by
  obtain ⟨hi, -⟩ := run_spec ops new_spec.1 hok hr
  refine search_total hi hp hb ?_ hk (le_refl _)
  obtain ⟨it, hm, rfl⟩ := hu
  exact List.countP_pos_iff.2 ⟨_, hm, by simp⟩

/-- `n` times: assign a key and remove it again. -/
def churn (n : Nat) : List TOp := (List.replicate n [TOp.set (.int 1) (.int 1), TOp.rm (.int 1)]).flatten

/-- C03 is false: assigning and removing the same key 31 times never completes — removal leaves tombstones, which count
neither towards the load nor as free, and the loop only stops at a slot never used. -/
theorem C03_hangs (f : Nat) : Table.new.run f (churn 31) = none := by
  cases hrun : Table.new.run f (churn 31) with
  | none => rfl
  | some t =>
    exfalso
    have hsplit : churn 31 = (churn 30 ++ [TOp.set (.int 1) (.int 1)]) ++ [TOp.rm (.int 1)] := by decide +kernel
    rw [hsplit, run_append] at hrun
    rw [Option.bind_eq_some_iff] at hrun
    obtain ⟨t1, h1, h2⟩ := hrun
    obtain ⟨t2, hk2, hfull, hl⟩ : ∃ t2, Table.new.run 100 (churn 30 ++ [TOp.set (.int 1) (.int 1)]) = some t2 ∧
        (∀ it ∈ t2.items, it.key.tag ≠ .undef) ∧ t2.base = 30 := by
      refine ⟨((Table.new.run 100 (churn 30 ++ [TOp.set (.int 1) (.int 1)])).getD Table.new), ?_, ?_, ?_⟩ <;>
        decide +kernel
    have : t1 = t2 := run_det h1 hk2
    subst this
    simp only [Table.run, List.foldlM_cons, List.foldlM_nil, Table.step, Table.rm, Val.hashable, if_true] at h2
    have hres : ∀ g, (if t1.load < 10 then t1.resizeWith (Table.insertFast g) g (t1.base / 2) else some t1) = some t1 := by
      intro g
      rw [Table.resizeWith, hl, if_pos (show 30 / 2 < TABLE_BASESIZE by decide)]
      split <;> rfl
    rw [hres] at h2
    simp only [Option.bind_some] at h2
    rw [rmLoop_full f t1.items _ _ hfull] at h2
    simp at h2

/-- 30 rounds still complete -/
example : (Table.new.run 100 (churn 30)).isSome = true := by decide +kernel

/-- C03 is false for lookups as well: after 30 such rounds and one more assignment, looking up any absent key never ends. -/
theorem C03_lookup_hangs (f : Nat) : ∃ t, Table.new.run 100 (churn 30 ++ [TOp.set (.int 1) (.int 1)]) = some t ∧
    t.search f (.int 2) = none := by
  refine ⟨((Table.new.run 100 (churn 30 ++ [TOp.set (.int 1) (.int 1)])).getD Table.new), by decide +kernel, ?_⟩
  simp only [Table.search, Val.hashable, if_true]
  apply searchLoop_full
  decide +kernel

/-! ## C04 -/

/-- C04, the part that holds: after any completed history (fewer than 2^64 operations) in which every removal removes a
present key, `len t` is the number of distinct present keys.  Missing: removals of absent keys, where it is false
(`C04_remove_absent_wraps`). -/
theorem C04_len_partial (ops : List TOp) (hok : ∀ op ∈ ops, op.OK) (hlen : ops.length < 2 ^ 64)
    (hpres : removesPresent (fun _ => none) ops) (f : Nat) (t : Table) (hr : Table.new.run f ops = some t) :
    ∃ ks : List Val, ks.Nodup ∧ (∀ k, k ∈ ks ↔ (specOf ops k).isSome) ∧ t.length = ks.length := by
  obtain ⟨hi, ha⟩ := run_spec ops new_spec.1 hok hr
  have habs : Abs t (specOf ops) := ha _ new_spec.2
  obtain ⟨hc, -⟩ := run_cnt ops (fun _ => none) new_spec.1 new_spec.2
    (show Table.new.count = Table.new.entries.length by decide +kernel) hok hpres
    (by have : Table.new.entries.length = 0 := by decide +kernel
        omega) hr
  refine ⟨t.keys, entries_nodup hi, ?_, ?_⟩
  · intro k
    simp only [Table.keys, List.mem_map]
    constructor
    · rintro ⟨it, hit, rfl⟩
      rw [(habs it.key it.value).1 ((entries_mem hi it).1 hit)]; rfl
    · intro h
      obtain ⟨v, hv⟩ := Option.isSome_iff_exists.1 h
      exact ⟨⟨k, v⟩, (entries_mem hi _).2 ((habs k v).2 hv), rfl⟩
  · rw [Table.length, hc, Table.keys, List.length_map]

example : removesPresent (fun _ => none) [.set (.int 1) (.int 1), .set (.int 2) (.int 1), .rm (.int 1)] ∧
    ((Table.new.run 100 [.set (.int 1) (.int 1), .set (.int 2) (.int 1), .rm (.int 1)]).map Table.length) = some 1 := by
  decide +kernel

/-- C04 is false: removing an absent key from an empty table makes its length 2^64 − 1 (printed as −1). -/
theorem C04_remove_absent_wraps : (Table.new.run 100 [.rm (.int 7)]).map Table.length = some (2 ^ 64 - 1) := by
  decide +kernel

/-! ## C05 -/

/-- C05: after any completed history, the keys enumerated by `keys()` and by a for-loop are exactly the present keys, each
once, and `values()` lists their values in the same order. -/
theorem C05_enumeration (ops : List TOp) (hok : ∀ op ∈ ops, op.OK) (f : Nat) (t : Table)
    (hr : Table.new.run f ops = some t) :
    t.keys.Nodup ∧ (∀ k, k ∈ t.keys ↔ (specOf ops k).isSome) ∧
    t.values.map some = t.keys.map (specOf ops) := by
  obtain ⟨hi, ha⟩ := run_spec ops new_spec.1 hok hr
  have habs : Abs t (specOf ops) := ha _ new_spec.2
  refine ⟨entries_nodup hi, fun k => ?_, ?_⟩
  · simp only [Table.keys, List.mem_map]
    constructor
    · rintro ⟨it, hit, rfl⟩
      rw [(habs it.key it.value).1 ((entries_mem hi it).1 hit)]; rfl
    · intro h
      obtain ⟨v, hv⟩ := Option.isSome_iff_exists.1 h
      exact ⟨⟨k, v⟩, (entries_mem hi _).2 ((habs k v).2 hv), rfl⟩
  · simp only [Table.keys, Table.values, List.map_map]
    apply List.map_congr_left
    intro it hit
    exact ((habs it.key it.value).1 ((entries_mem hi it).1 hit)).symm

example : (Table.new.run 100 [.set (.int 1) (.int 7), .set (.str [97]) (.int 8), .rm (.int 1), .set (.int 1) (.int 9)]).map
    (fun t => (t.keys, t.values)) = some ([.str [97], .int 1], [.int 8, .int 9]) := by decide +kernel

/-! ## C07 -/

/-- C07: whatever the new size, resizing a table that a completed history produced keeps exactly its entries (and hence
every lookup, C02). -/
theorem C07_resize_keeps_entries (ops : List TOp) (hok : ∀ op ∈ ops, op.OK) (f : Nat) (t : Table)
    (hr : Table.new.run f ops = some t) (f' base : Nat) (t' : Table)
    (hres : t.resizeWith (Table.insertFast f') f' base = some t') :
    (∀ it, it ∈ t'.entries ↔ it ∈ t.entries) ∧ t'.keys.Nodup ∧
    ∀ g k r r', GoodKey k → t.search g k = some r → t'.search g k = some r' → r = r' := by
  obtain ⟨hi, ha⟩ := run_spec ops new_spec.1 hok hr
  have habs : Abs t (specOf ops) := ha _ new_spec.2
  obtain ⟨hi', ha'⟩ := resizeWith_spec (insertFast_insSpec f') hi hres
  have habs' := ha' _ habs
  refine ⟨fun it => ?_, entries_nodup hi', ?_⟩
  · rw [entries_mem hi', entries_mem hi]
    rw [show it = ⟨it.key, it.value⟩ from rfl, habs' it.key it.value, habs it.key it.value]
  · intro g k r r' hk h1 h2
    rw [search_spec hi habs hk h1, search_spec hi' habs' hk h2]

example : ((Table.new.run 100 [.set (.int 1) (.int 7), .set (.str [97]) (.int 8)]).bind
    (fun t => t.resizeWith (Table.insertFast 100) 100 60)).map (fun t => (t.size, t.keys)) =
    some (61, [.str [97], .int 1]) := by decide +kernel

/-! ## C08 -/

/-- C08: operations with an unhashable key (list, table, function, userdata, …) do not change the table; assignment reports
a type error, lookup reports absence. (For a value other than `undef`: `t[k] = undef` is a removal.) -/
theorem C08_unhashable (f : Nat) (t : Table) (k v : Val) (hk : k.hashable = false) :
    t.insert f k v = some (t, false) ∧ t.rm f k = some t ∧ t.search f k = some .end_ ∧
    (v ≠ .undef → t.set f k v = some .typeError) ∧ t.set f k .undef = some (.ok t) := by
  refine ⟨by simp [Table.insert, hk], by simp [Table.rm, hk], by simp [Table.search, hk], ?_, by simp [Table.set, Table.rm, hk]⟩
  intro hv
  simp [Table.set, hv, Table.insert, hk]

/-- lists, tables, functions and userdata are unhashable (interpreter/YASL_Object.c) -/
example (n : Nat) (kd : RefKind) : (Val.ref kd n).hashable = false := by cases kd <;> rfl

/-! ## C09 -/

/-- C09 is false: after `t[undef] = 1` reading `t[undef]` reports absence. -/
theorem C09_undef_key_lost : ∃ t, Table.new.set 100 .undef (.int 1) = some (.ok t) ∧ t.search 100 .undef = some .end_ ∧
    t.keys = [.undef] ∧ t.length = 0 := by
  refine ⟨_, rfl, ?_, ?_, ?_⟩ <;> decide +kernel

/-- C09 is false: storing under `undef` makes other keys unreadable: `t[undef] = 1; t[0] = 5` and then `t[0]` is absent. -/
theorem C09_undef_key_breaks_others :
    ∃ t, Table.new.run 100 [.set .undef (.int 1), .set (.int 0) (.int 5)] = some t ∧ t.search 100 (.int 0) = some .end_ := by
  refine ⟨_, rfl, ?_⟩; decide +kernel

/-- C09, what holds: as long as nothing is stored under `undef` or an unhashable key, looking up `undef` reports absence. -/
theorem C09_undef_absent_partial (ops : List TOp) (hok : ∀ op ∈ ops, op.OK) (f : Nat) (t : Table)
    (hr : Table.new.run f ops = some t) (f' : Nat) (r : Val) (hs : t.search f' .undef = some r) : r = .end_ := by
  obtain ⟨hi, -⟩ := run_spec ops new_spec.1 hok hr
  simp only [Table.search, Val.hashable, if_true] at hs
  have key : ∀ (g index i : Nat), searchLoop t .undef g index i = some r → r = .end_ := by
    intro g
    induction g with
    | zero => intro index i h; simp [searchLoop] at h
    | succ g ih =>
      intro index i h
      simp only [searchLoop] at h
      split at h
      · simp at h
      · rename_i it hit
        split at h
        · injection h with h; exact h.symm
        · rename_i hu
          split at h
          · rename_i he
            exfalso; apply hu
            simp only [isEqualTyped, Bool.and_eq_true, beq_iff_eq] at he
            exact he.1
          · exact ih _ _ h
  exact key _ _ _ hs

/-! ## C10 -/

theorem clear_spec (t : Table) : TInv t.clear ∧ Abs t.clear (fun _ => none) := by
  refine ⟨⟨by simp [Table.clear, TABLE_BASESIZE], by simp [Table.clear, TABLE_BASESIZE], ?_, ?_⟩, ?_⟩
  · simp only [Table.ks, Table.clear, List.map_replicate]
    exact KInv.replicate _ GoodKey.gok _
  · intro it hit; exact .inl (List.eq_of_mem_replicate hit)
  · intro k v
    simp only [reduceCtorEq, iff_false, not_and]
    intro hk hmem
    have := List.eq_of_mem_replicate hmem
    injection this with h1 h2; subst h1; exact GoodKey.gok.nundef hk

/-- C10, the part that holds: after `clear` the length is 0, nothing is enumerated, every lookup reports absence at the
first probe, and any later history that completes behaves as on a new table.  Missing: later operations may not
complete (`C10_clear_hangs`). -/
theorem C10_clear_partial (t : Table) :
    t.clear.length = 0 ∧ t.clear.keys = [] ∧ (∀ f k, 0 < f → k.hashable = true → t.clear.search f k = some .end_) ∧
    ∀ (ops : List TOp), (∀ op ∈ ops, op.OK) → ∀ f t', t.clear.run f ops = some t' →
      ∀ f' k r, GoodKey k → t'.search f' k = some r → r = (specOf ops k).getD .end_ := by
  refine ⟨rfl, ?_, ?_, ?_⟩
  · simp only [Table.keys, Table.entries, Table.clear, TABLE_BASESIZE]; decide
  · intro f k hf hk
    obtain ⟨g, rfl⟩ : ∃ g, f = g + 1 := ⟨f - 1, by omega⟩
    have hlt : getHash k t.clear.size 0 < TABLE_BASESIZE :=
      C06_probe_in_bounds k _ 0 (show 0 < TABLE_BASESIZE by decide)
    simp only [Table.search, hk, if_true, searchLoop]
    have : t.clear.items[getHash k t.clear.size 0]? = some emptyItem := by
      simp only [Table.clear] at hlt ⊢
      rw [List.getElem?_replicate, if_pos hlt]
    rw [this]
    rfl
  · intro ops hok f t' hr f' k r hk hs
    obtain ⟨hi, ha⟩ := run_spec ops (clear_spec t).1 hok hr
    exact search_spec hi (ha _ (clear_spec t).2) hk hs

example : ((Table.new.clear.run 100 [.set (.int 1) (.int 7), .rm (.int 2)]).bind (·.search 100 (.int 1))) = some (.int 7) := by
  decide +kernel

/-- six keys that fill the slots divisible by 5 of a table with 30 slots -/
def sixKeys : List TOp := [0, 5, 10, 15, 20, 25].map fun n => TOp.set (.int (BitVec.ofNat 64 n)) (.int 1)

/-- C10 is false: `clear` sets the size to 30, not a prime, and after six further assignments (24 of 30 slots are free) the
assignment `t[35] = 1` does not complete within 2^57 iterations of its loop. -/
theorem C10_clear_hangs (f : Nat) (hf : f ≤ 2 ^ 57) : Table.new.clear.run f (sixKeys ++ [.set (.int 35) (.int 1)]) = none := by
  cases hrun : Table.new.clear.run f (sixKeys ++ [.set (.int 35) (.int 1)]) with
  | none => rfl
  | some t =>
    exfalso
    rw [run_append, Option.bind_eq_some_iff] at hrun
    obtain ⟨t1, h1, h2⟩ := hrun
    obtain ⟨t2, hk2, hfull, hl, hsz⟩ : ∃ t2, Table.new.clear.run 100 sixKeys = some t2 ∧
        (∀ i < 30, i % 5 = 0 → ∃ it, t2.items[i]? = some it ∧ it.value.tag ≠ .undef ∧ isEqualTyped it.key (.int 35) = false) ∧
        ¬ (t2.load > 70) ∧ t2.size = 30 := by
      refine ⟨((Table.new.clear.run 100 sixKeys).getD Table.new), by decide +kernel, ?_, by decide +kernel, by decide +kernel⟩
      intro i hi h5
      have hc : ∀ i < 30, i % 5 = 0 → (match ((Table.new.clear.run 100 sixKeys).getD Table.new).items[i]? with
          | none => false
          | some it => it.value.tag != .undef && !isEqualTyped it.key (.int 35)) = true := by decide +kernel
      have := hc i hi h5
      split at this
      · simp at this
      · rename_i it hit
        refine ⟨it, hit, ?_⟩
        simpa using this
    have : t1 = t2 := run_det h1 hk2
    subst this
    have hprobe : ∀ j < 2 ^ 58, getHash (.int 35) t1.size j % 5 = 0 := by
      intro j hj
      rw [hsz]
      have hA : hashFunction (.int 35) PRIME_A 30 = 25 := by decide +kernel
      have hB : hashFunction (.int 35) PRIME_B 30 = 25 := by decide +kernel
      unfold getHash
      rw [hA, hB]
      split
      · rfl
      · simp only [show ¬ (25 = 0) by decide, if_false]
        rw [Nat.mod_eq_of_lt (a := 25 + _) (by omega)]
        omega
    have hloop : ∀ g j, j + g < 2 ^ 58 → getIndexLoop t1 (.int 35) g (getHash (.int 35) t1.size j) (j + 1) = none := by
      intro g
      induction g with
      | zero => intros; rfl
      | succ g ih =>
        intro j hj
        have hlt := C06_probe_in_bounds (.int 35) t1.size j (by omega)
        obtain ⟨it, hit, hv, he⟩ := hfull _ (by omega) (hprobe j (by omega))
        simp only [getIndexLoop, hit, hv, he, if_false, Bool.false_eq_true, and_false]
        exact ih (j + 1) (by omega)
    have hno : t1.insertFast f (.int 35) (.int 1) = none := by
      cases f with
      | zero => rfl
      | succ g =>
        simp only [Table.insertFast]
        rw [if_neg hl]
        simp only [Option.bind_some, Table.insertHere, Table.getIndex]
        rw [show (1 : Nat) = 0 + 1 from rfl, hloop g 0 (by omega)]
        rfl
    simp only [Table.run, List.foldlM_cons, List.foldlM_nil, Table.step, Table.insert, Val.hashable, if_true] at h2
    rw [hno] at h2
    simp at h2

/-! ## C11 -/

/-- reading an association list of entries inserted in order -/
theorem insertAll_spec {f : Nat} {t t' : Table} {l : List Item} (h : TInv t) (hl : ∀ it ∈ l, GoodKey it.key ∧ LiveVal it.value)
    (hr : t.insertAll f l = some t') : TInv t' ∧ ∀ m, Abs t m → Abs t' (updAll m l) :=
  foldlM_ins (insertFast_insSpec f) l t t' h hl hr

/-- C11: `a | b` maps a key to its value in `b`, if present there, and otherwise to its value in `a`. (The operands are
only read.) -/
theorem C11_union (opsA opsB : List TOp) (hA : ∀ op ∈ opsA, op.OK) (hB : ∀ op ∈ opsB, op.OK) (f : Nat) (a b c : Table)
    (ra : Table.new.run f opsA = some a) (rb : Table.new.run f opsB = some b) (f' : Nat) (ru : a.union f' b = some c) :
    (∀ g k r, GoodKey k → c.search g k = some r → r = ((specOf opsB k).or (specOf opsA k)).getD .end_) ∧
    c.keys.Nodup ∧ ∀ k, k ∈ c.keys ↔ ((specOf opsB k).isSome ∨ (specOf opsA k).isSome) := by
  obtain ⟨hia, haa⟩ := run_spec opsA new_spec.1 hA ra
  obtain ⟨hib, hab⟩ := run_spec opsB new_spec.1 hB rb
  have h1 : Abs a (specOf opsA) := haa _ new_spec.2
  have h2 : Abs b (specOf opsB) := hab _ new_spec.2
  simp only [Table.union, Option.bind_eq_bind, Option.bind_eq_some_iff] at ru
  obtain ⟨n0, e0, n1, e1, e2⟩ := ru
  obtain ⟨i0, a0, -⟩ := newSized_spec e0
  obtain ⟨i1, a1⟩ := insertAll_spec i0 (fun it hit => entries_live hia hit) e1
  obtain ⟨i2, a2⟩ := insertAll_spec i1 (fun it hit => entries_live hib hit) e2
  have habs := a2 _ (a1 _ a0)
  rw [updAll_entries hia h1, updAll_entries hib h2] at habs
  refine ⟨fun g k r hk hs => ?_, entries_nodup i2, fun k => ?_⟩
  · rw [search_spec i2 habs hk hs]; simp
  · simp only [Table.keys, List.mem_map]
    constructor
    · rintro ⟨it, hit, rfl⟩
      have := (habs it.key it.value).1 ((entries_mem i2 it).1 hit)
      cases hb : specOf opsB it.key <;> simp_all
    · intro h
      have : ∃ v, ((specOf opsB k).or ((specOf opsA k).or none)) = some v := by
        cases hb : specOf opsB k with
        | some v => exact ⟨v, rfl⟩
        | none =>
          rw [hb] at h; simp at h
          obtain ⟨v, hv⟩ := Option.isSome_iff_exists.1 h
          exact ⟨v, by rw [hv]; rfl⟩
      obtain ⟨v, hv⟩ := this
      exact ⟨⟨k, v⟩, (entries_mem i2 _).2 ((habs k v).2 hv), rfl⟩

/-- C11: `a.copy()` has exactly the entries of `a`. -/
theorem C11_copy (ops : List TOp) (hok : ∀ op ∈ ops, op.OK) (f : Nat) (a c : Table)
    (ra : Table.new.run f ops = some a) (f' : Nat) (rc : a.copy f' = some c) :
    (∀ it, it ∈ c.entries ↔ it ∈ a.entries) ∧ c.keys.Nodup ∧
    ∀ g k r, GoodKey k → c.search g k = some r → r = (specOf ops k).getD .end_ := by
  obtain ⟨hia, haa⟩ := run_spec ops new_spec.1 hok ra
  have h1 : Abs a (specOf ops) := haa _ new_spec.2
  simp only [Table.copy, Option.bind_eq_bind, Option.bind_eq_some_iff] at rc
  obtain ⟨n0, e0, e1⟩ := rc
  obtain ⟨i0, a0, -⟩ := newSized_spec e0
  obtain ⟨i1, a1⟩ := insertAll_spec i0 (fun it hit => entries_live hia hit) e1
  have habs := a1 _ a0
  rw [updAll_entries hia h1] at habs
  refine ⟨fun it => ?_, entries_nodup i1, fun g k r hk hs => ?_⟩
  · rw [entries_mem i1, entries_mem hia]
    rw [show it = ⟨it.key, it.value⟩ from rfl, habs it.key it.value, h1 it.key it.value]
    simp
  · rw [search_spec i1 habs hk hs]; simp

/-- C11: union and copy complete, for operands built by at most 2^28 assignments each. -/
theorem C11_union_copy_terminate (opsA opsB : List TOp) (hA : ∀ op ∈ opsA, op.IsSet ∧ op.OK) (hB : ∀ op ∈ opsB, op.IsSet ∧ op.OK)
    (la : opsA.length ≤ 2 ^ 28) (lb : opsB.length ≤ 2 ^ 28) (f : Nat) (hf : 2 ^ 33 ≤ f) :
    ∃ a b c d, Table.new.run f opsA = some a ∧ Table.new.run f opsB = some b ∧ a.union f b = some c ∧ a.copy f = some d := by
  have hrp : ∀ (m : Val → Option Val) (ops : List TOp), (∀ op ∈ ops, op.IsSet ∧ op.OK) → removesPresent m ops ∧ removals ops = 0 := by
    intro m ops
    induction ops generalizing m with
    | nil => intro _; exact ⟨trivial, rfl⟩
    | cons op ops ih =>
      intro h
      cases op with
      | set k v =>
        have := ih ((TOp.set k v).apply m) (fun o ho => h o (by simp [ho]))
        exact ⟨this.1, by simpa [removals] using this.2⟩
      | rm k => exact absurd (h (.rm k) (by simp)).1 (by simp [TOp.IsSet])
  have go : ∀ ops : List TOp, (∀ op ∈ ops, op.IsSet ∧ op.OK) → ops.length ≤ 2 ^ 28 →
      ∃ t, Table.new.run f ops = some t ∧ TGood 0 (2 ^ 28) t := by
    intro ops h hl
    obtain ⟨h1, h2⟩ := hrp (fun _ => none) ops h
    obtain ⟨t, hr, hg⟩ := run_good (N := 2 ^ 28) (f := f) (by omega) (by omega) ops (R := 0) (fun _ => none)
      (new_good _) new_spec.2 (fun o ho => (h o ho).2) h1 (by omega) (by simpa [Table.new] using hl)
    rw [h2] at hg
    exact ⟨t, hr, hg⟩
  obtain ⟨a, ra, ga⟩ := go opsA hA la
  obtain ⟨b, rb, gb⟩ := go opsB hB lb
  have all : ∀ (l : List Item) (t : Table), TGood 0 (2 ^ 29) t → (∀ it ∈ l, GoodKey it.key ∧ LiveVal it.value) →
      t.count + l.length ≤ 2 ^ 29 → ∃ t', t.insertAll f l = some t' ∧ TGood 0 (2 ^ 29) t' ∧ t'.count ≤ t.count + l.length := by
    intro l
    induction l with
    | nil => intro t ht _ _; exact ⟨t, rfl, ht, by simp⟩
    | cons x l ih =>
      intro t ht hl hb
      rw [List.length_cons] at hb
      obtain ⟨t1, e1, g1, c1⟩ := insertFast_good (by omega) (le_refl _) ht (hl x (by simp)).1 (hl x (by simp)).2 (by omega)
        (f := f) (by omega)
      obtain ⟨t2, e2, g2, c2⟩ := ih t1 g1 (fun it hit => hl it (by simp [hit])) (by omega)
      refine ⟨t2, ?_, g2, by rw [List.length_cons]; omega⟩
      simp only [Table.insertAll, List.foldlM_cons, Option.bind_eq_bind]
      rw [e1]; exact e2
  have ca : a.entries.length ≤ 2 ^ 28 := by have h1 := ga.countN; have h2 : a.count = a.entries.length := ga.cnt; omega
  have cb : b.entries.length ≤ 2 ^ 28 := by have h1 := gb.countN; have h2 : b.count = b.entries.length := gb.cnt; omega
  obtain ⟨n0, e0, g0, -, c0, -⟩ := newSized_good (N := 2 ^ 29) ga.b30 (by have := ga.small; omega) (le_refl _) (f := f) (by omega)
  obtain ⟨n1, e1, g1, c1⟩ := all a.entries n0 g0 (fun it hit => entries_live ga.inv hit) (by omega)
  obtain ⟨n2, e2, g2, c2⟩ := all b.entries n1 g1 (fun it hit => entries_live gb.inv hit) (by omega)
  refine ⟨a, b, n2, n1, ra, rb, ?_, ?_⟩
  · simp only [Table.union, e0, Option.bind_eq_bind, Option.bind_some, e1, e2]
  · simp only [Table.copy, e0, Option.bind_eq_bind, Option.bind_some, e1]

example : ((Table.new.run 100 [.set (.int 1) (.int 7), .set (.int 2) (.int 7)]).bind fun a =>
    (Table.new.run 100 [.set (.int 2) (.int 8), .set (.int 3) (.int 8)]).bind fun b => (a.union 100 b).map (·.values)) =
    some [.int 8, .int 7, .int 8] := by decide +kernel

/-! ## C12 -/

theorem tableEqLoop_spec {f : Nat} {eqv : Val → Val → Bool} {b : Table} {mb : Val → Option Val} (hb : TInv b) (ab : Abs b mb)
    (hlive : ∀ k v, mb k = some v → v ≠ .end_) : ∀ (l : List Item) (r : Bool), (∀ it ∈ l, GoodKey it.key) →
    tableEqLoop f eqv b l = some r →
    (r = true ↔ ∀ it ∈ l, ∃ w, mb it.key = some w ∧ eqv it.value w = true) := by
  intro l
  induction l with
  | nil => intro r _ h; simp [tableEqLoop] at h; simp [← h]
  | cons it l ih =>
    intro r hg h
    simp only [tableEqLoop] at h
    split at h
    · simp at h
    · rename_i s hs
      have hse := search_spec hb ab (hg it (by simp)) hs
      simp only [List.mem_cons, forall_eq_or_imp]
      cases hm : mb it.key with
      | none =>
        rw [hm] at hse; simp only [Option.getD_none] at hse
        rw [if_pos hse] at h; injection h with h; subst h
        simp
      | some w =>
        rw [hm] at hse; simp only [Option.getD_some] at hse
        rw [if_neg (by rw [hse]; exact hlive _ _ hm)] at h
        subst hse
        split at h
        · rename_i he
          rw [ih r (fun x hx => hg x (by simp [hx])) h]
          simp [he]
        · rename_i he
          injection h with h; subst h
          simp [he]

/-- C12, the part that holds: for tables whose lengths are right (no absent key was removed, C04), `a == b`, whenever it completes, is true exactly when both have the same
keys and `==` holds between the values of each — however the two were built. `eqv` is `==` on the values (modelled in
`Verif.Model.Ops` for primitives; C21). -/
theorem C12_table_eq_partial (eqv : Val → Val → Bool) (opsA opsB : List TOp) (hA : ∀ op ∈ opsA, op.OK) (hB : ∀ op ∈ opsB, op.OK)
    (pA : removesPresent (fun _ => none) opsA) (pB : removesPresent (fun _ => none) opsB)
    (lA : opsA.length < 2 ^ 64) (lB : opsB.length < 2 ^ 64) (f : Nat) (a b : Table)
    (ra : Table.new.run f opsA = some a) (rb : Table.new.run f opsB = some b) (f' : Nat) (r : Bool)
    (he : a.eq f' eqv b = some r) :
    r = true ↔ ∀ k, (specOf opsA k = none ∧ specOf opsB k = none) ∨
      ∃ v w, specOf opsA k = some v ∧ specOf opsB k = some w ∧ eqv v w = true := by
  obtain ⟨hia, haa⟩ := run_spec opsA new_spec.1 hA ra
  obtain ⟨hib, hab⟩ := run_spec opsB new_spec.1 hB rb
  have h1 : Abs a (specOf opsA) := haa _ new_spec.2
  have h2 : Abs b (specOf opsB) := hab _ new_spec.2
  have hn : Table.new.count = Table.new.entries.length := by decide +kernel
  have h0 : Table.new.entries.length = 0 := by decide +kernel
  obtain ⟨ca, -⟩ := run_cnt opsA (fun _ => none) new_spec.1 new_spec.2 hn hA pA (by omega) ra
  obtain ⟨cb, -⟩ := run_cnt opsB (fun _ => none) new_spec.1 new_spec.2 hn hB pB (by omega) rb
  have ca : a.count = a.keys.length := by rw [ca, Table.keys, List.length_map]
  have cb : b.count = b.keys.length := by rw [cb, Table.keys, List.length_map]
  have ka : ∀ k, k ∈ a.keys ↔ (specOf opsA k).isSome := (C05_enumeration opsA hA f a ra).2.1
  have kb : ∀ k, k ∈ b.keys ↔ (specOf opsB k).isSome := (C05_enumeration opsB hB f b rb).2.1
  have na : a.keys.Nodup := entries_nodup hia
  have nb : b.keys.Nodup := entries_nodup hib
  have hlive : ∀ k v, specOf opsB k = some v → v ≠ .end_ := by
    intro k v hv hc
    have hm := (h2 k v).2 hv
    rcases hib.pair _ hm.2 with he | he | hg
    · exact absurd he (not_special (it := ⟨k, v⟩) hm.1).1
    · exact absurd he (not_special (it := ⟨k, v⟩) hm.1).2
    · exact hg.2.2 hc
  unfold Table.eq at he
  split at he
  · rename_i hne
    injection he with he; subst he
    simp only [Bool.false_eq_true, false_iff]
    intro hall
    apply hne
    rw [ca, cb]
    apply Nat.le_antisymm
    · apply List.Subperm.length_le
      apply (List.subperm_of_subset na)
      intro k hk
      rw [kb]; rw [ka] at hk
      rcases hall k with ⟨h, -⟩ | ⟨v, w, -, h, -⟩
      · rw [h] at hk; simp at hk
      · rw [h]; rfl
    · apply List.Subperm.length_le
      apply (List.subperm_of_subset nb)
      intro k hk
      rw [ka]; rw [kb] at hk
      rcases hall k with ⟨-, h⟩ | ⟨v, w, h, -, -⟩
      · rw [h] at hk; simp at hk
      · rw [h]; rfl
  · rename_i hce
    have hce : a.keys.length = b.keys.length := by rw [← ca, ← cb]; omega
    rw [tableEqLoop_spec hib h2 hlive a.entries r (fun it hit => (entries_live hia hit).1) he]
    constructor
    · intro hall
      have hsub : ∀ k ∈ a.keys, k ∈ b.keys := by
        intro k hk
        obtain ⟨it, hit, rfl⟩ := List.mem_map.1 hk
        obtain ⟨w, hw, -⟩ := hall it hit
        rw [kb, hw]; rfl
      have hperm : a.keys.Perm b.keys := (List.subperm_of_subset na hsub).perm_of_length_le (by omega)
      intro k
      cases hk : specOf opsA k with
      | none =>
        left
        refine ⟨rfl, ?_⟩
        cases hkb : specOf opsB k with
        | none => rfl
        | some w =>
          have : k ∈ b.keys := by rw [kb, hkb]; rfl
          have := (hperm.mem_iff).2 this
          rw [ka, hk] at this; simp at this
      | some v =>
        right
        have hm := (h1 k v).2 hk
        obtain ⟨w, hw, heq⟩ := hall ⟨k, v⟩ ((entries_mem hia _).2 hm)
        exact ⟨v, w, rfl, hw, heq⟩
    · intro hall it hit
      have hv := (h1 it.key it.value).1 ((entries_mem hia it).1 hit)
      rcases hall it.key with ⟨h, -⟩ | ⟨v, w, h, h', he'⟩
      · rw [hv] at h; simp at h
      · rw [hv] at h; injection h with h; subst h; exact ⟨w, h', he'⟩

/-- C12 is false after an absent key was removed: two empty tables are unequal. -/
theorem C12_wrong_after_absent_removal : ∃ a, Table.new.run 100 [.rm (.int 7)] = some a ∧ a.keys = [] ∧
    Table.new.keys = [] ∧ a.eq 100 isEqual Table.new = some false := by
  refine ⟨_, rfl, ?_, ?_, ?_⟩ <;> decide +kernel

/-- two insertion orders, and a removal -/
example : ((Table.new.run 100 [.set (.int 1) (.int 7), .set (.int 32) (.int 8)]).bind fun a =>
    (Table.new.run 100 [.set (.int 32) (.int 8), .set (.int 5) (.int 8), .rm (.int 5), .set (.int 1) (.int 7)]).bind
      fun b => a.eq 100 isEqual b) = some true := by decide +kernel

/-- the theorems on a history with a key that is overwritten and removed -/
def demoOps : List TOp := [.set (.int 3) (.int 1), .set (.str [97]) (.int 2), .rm (.int 3), .set (.int 3) (.bool false)]
theorem demoOps_ok : ∀ op ∈ demoOps, op.OK := by
  intro op h
  simp only [demoOps, List.mem_cons, List.not_mem_nil, or_false] at h
  rcases h with rfl | rfl | rfl | rfl
  · exact ⟨.inl trivial, by simp, by simp⟩
  · exact ⟨.inl trivial, by simp, by simp⟩
  · exact .inl trivial
  · exact ⟨.inl trivial, by simp, by simp⟩
theorem demoOps_run : ∃ t, Table.new.run 100 demoOps = some t := Option.isSome_iff_exists.1 (by decide +kernel)
example : ∃ t, Table.new.run 100 demoOps = some t ∧ ∀ f r, t.search f (.int 3) = some r → r = .bool false := by
  obtain ⟨t, ht⟩ := demoOps_run
  exact ⟨t, ht, fun f r hr => C02_lookup_correct demoOps demoOps_ok 100 t ht f (.int 3) (.inl trivial) r hr⟩
example : ∃ t, Table.new.run 100 demoOps = some t ∧ ∀ f r, t.search f .undef = some r → r = .end_ := by
  obtain ⟨t, ht⟩ := demoOps_run
  exact ⟨t, ht, C09_undef_absent_partial demoOps demoOps_ok 100 t ht⟩
example : ∃ a c, Table.new.run 100 demoOps = some a ∧ a.copy 100 = some c ∧ c.keys.Nodup := by
  obtain ⟨t, ht⟩ := demoOps_run
  obtain ⟨c, hc⟩ := Option.isSome_iff_exists.1 (show ((Table.new.run 100 demoOps).bind (·.copy 100)).isSome = true by decide +kernel)
  rw [ht] at hc
  exact ⟨t, c, ht, hc, (C11_copy demoOps demoOps_ok 100 t c ht 100 hc).2.1⟩
example : ∃ a c, Table.new.run 100 demoOps = some a ∧ a.union 100 a = some c ∧ c.keys.Nodup := by
  obtain ⟨t, ht⟩ := demoOps_run
  obtain ⟨c, hc⟩ := Option.isSome_iff_exists.1 (show ((Table.new.run 100 demoOps).bind fun t => t.union 100 t).isSome = true by decide +kernel)
  rw [ht] at hc
  exact ⟨t, c, ht, hc, (C11_union demoOps demoOps demoOps_ok demoOps_ok 100 t t c ht ht 100 hc).2.1⟩

end Yasl
