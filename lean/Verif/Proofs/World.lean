import Verif.Model.World
import Verif.Props.Host
import Verif.Props.Index
import Verif.Props.Str
import Verif.Proofs.WorldStr
import Verif.Props.Print
import Verif.Props.Num
set_option autoImplicit false
/-! # Lists and tables of the implementation, and sequences and maps -/
namespace Yasl

/-! ## Metatables of the built-in methods -/

theorem specFrom_sets (k : Val) : ∀ (es : List (Val × Val)) (m : Val → Option Val), (∀ e ∈ es, e.1.hashable = true) → (es.map Prod.fst).Nodup →
    specFrom m (es.map fun e => TOp.set e.1 e.2) k = match es.find? fun e => decide (e.1 = k) with
      | some e => some e.2
      | none => m k
  | [], m, _, _ => rfl
  | e :: es, m, h, hn => by
    have hn' := List.nodup_cons.1 (by simpa using hn : (e.1 :: es.map Prod.fst).Nodup)
    rw [List.map_cons, specFrom, List.foldl_cons]
    have ih := specFrom_sets k es ((TOp.set e.1 e.2).apply m) (fun x hx => h x (by simp [hx])) hn'.2
    rw [specFrom] at ih
    rw [ih, List.find?_cons]
    by_cases hk : e.1 = k
    · have : (es.find? fun e => decide (e.1 = k)) = none := by
        rw [List.find?_eq_none]
        intro x hx hc
        apply hn'.1
        rw [hk, ← of_decide_eq_true hc]
        exact List.mem_map_of_mem hx
      subst hk
      rw [this]
      simp [TOp.apply, h e (by simp)]
    · have hk' : ¬ k = e.1 := fun h => hk h.symm
      simp [hk, hk', TOp.apply]

theorem builtinOps_eq (es : List (String × Meth × Nat)) :
    builtinOps es = (es.map fun e => ((.str (ascii e.1) : Val), e.2.1.val)).map fun e => TOp.set e.1 e.2 := by simp [builtinOps]

theorem builtinOps_ok (es : List (String × Meth × Nat)) : (∀ op ∈ builtinOps es, op.IsSet) ∧ (∀ op ∈ builtinOps es, op.OK) := by
  have h : ∀ op ∈ builtinOps es, op.IsSet ∧ op.OK := by
    intro op ho
    simp only [builtinOps, List.mem_map] at ho
    obtain ⟨p, -, rfl⟩ := ho
    exact ⟨trivial, .inl trivial, by simp [LiveVal, Meth.val]⟩
  exact ⟨fun op ho => (h op ho).1, fun op ho => (h op ho).2⟩

/-- The tables of the methods in the source and in the specification have the same entries. -/
def sameEntries (es : List (String × Meth × Nat)) (ms : List (String × Meth)) : Prop :=
  (es.map fun e => (e.1, e.2.1)).Perm ms ∧ (ms.map fun p => ascii p.1).Nodup ∧ es.length ≤ 30

instance (es : List (String × Meth × Nat)) (ms : List (String × Meth)) : Decidable (sameEntries es ms) := by unfold sameEntries; infer_instance

theorem sameEntries_undef : sameEntries undefBuiltins (methodsOf .undef) := by decide +kernel
theorem sameEntries_float : sameEntries floatBuiltins (methodsOf (.float 0)) := by decide +kernel
theorem sameEntries_int : sameEntries intBuiltins (methodsOf (.int 0)) := by decide +kernel
theorem sameEntries_bool : sameEntries boolBuiltins (methodsOf (.bool false)) := by decide +kernel
theorem sameEntries_str : sameEntries strBuiltins (methodsOf (.str [])) := by decide +kernel
theorem sameEntries_list : sameEntries listBuiltins (methodsOf (.ref .list 0)) := by decide +kernel
theorem sameEntries_table : sameEntries tableBuiltins (methodsOf (.ref .table 0)) := by decide +kernel

theorem builtinsOf_same {v : Val} {es : List (String × Meth × Nat)} (h : builtinsOf v = .ok es) : sameEntries es (methodsOf v) := by
  cases v with
  | end_ => cases h
  | undef => cases h; exact sameEntries_undef
  | float x => cases h; exact sameEntries_float
  | int x => cases h; exact sameEntries_int
  | bool x => cases h; exact sameEntries_bool
  | str x => cases h; exact sameEntries_str
  | userptr x => cases h
  | ref k a =>
    cases k <;> cases h
    · exact sameEntries_list
    · exact sameEntries_table

theorem find_perm {α β : Type} [DecidableEq β] {key : α → β} {l l' : List α} (hp : l.Perm l') (hn : (l.map key).Nodup) (k : β) :
    (l.find? fun e => decide (key e = k)) = l'.find? fun e => decide (key e = k) := by
  have hn' : (l'.map key).Nodup := (hp.map key).nodup_iff.1 hn
  have huniq : ∀ x ∈ l, ∀ y ∈ l, key x = key y → x = y := fun x hx y hy h => (List.inj_on_of_nodup_map hn) hx hy h
  cases h : l.find? fun e => decide (key e = k) with
  | none =>
    rw [List.find?_eq_none] at h
    rw [eq_comm, List.find?_eq_none]
    exact fun x hx => h x (hp.mem_iff.2 hx)
  | some e =>
    have he := List.find?_some h
    have hm := List.mem_of_find?_eq_some h
    cases h' : l'.find? fun e => decide (key e = k) with
    | none =>
      rw [List.find?_eq_none] at h'
      exact absurd he (h' e (hp.mem_iff.1 hm))
    | some e' =>
      have he' := List.find?_some h'
      have hm' := hp.mem_iff.2 (List.mem_of_find?_eq_some h')
      rw [huniq e hm e' hm' ((of_decide_eq_true he).trans (of_decide_eq_true he').symm)]

theorem specOf_builtin {es : List (String × Meth × Nat)} {v : Val} (h : sameEntries es (methodsOf v)) (k : Val) :
    specOf (builtinOps es) k = (methodOf v k).map Meth.val := by
  obtain ⟨hp, hn, -⟩ := h
  rw [builtinOps_eq, specOf, specFrom_sets k _ _ (by intro e he; obtain ⟨x, -, rfl⟩ := List.mem_map.1 he; rfl)]
  · rw [List.find?_map]
    cases k with
    | str s =>
      rw [methodOf]
      have hn1 : ((es.map fun e => (e.1, e.2.1)).map fun p => ascii p.1).Nodup := ((hp.map _).nodup_iff).2 hn
      have e1 := find_perm (key := fun p : String × Meth => ascii p.1) hp hn1 s
      have e2 : ((methodsOf v).find? fun p => decide (methodOf.printedName p.1 = s)) = (methodsOf v).find? fun p => decide (ascii p.1 = s) := rfl
      rw [e2, ← e1, List.find?_map]
      have e3 : ((fun e : Val × Val => decide (e.1 = Val.str s)) ∘ fun e : String × Meth × Nat => ((Val.str (ascii e.1), e.2.1.val) : Val × Val)) =
          ((fun e : String × Meth => decide (ascii e.1 = s)) ∘ fun e : String × Meth × Nat => (e.1, e.2.1)) := by
        funext e; simp
      rw [e3]
      cases es.find? ((fun e : String × Meth => decide (ascii e.1 = s)) ∘ fun e : String × Meth × Nat => (e.1, e.2.1)) <;> rfl
    | _ =>
      rw [methodOf]
      · rw [List.find?_eq_none.2 (by intro x _; simp)]; rfl
      · intro s; simp
  · have : (es.map fun e => ((.str (ascii e.1) : Val), e.2.1.val)).map Prod.fst = ((es.map fun e => (e.1, e.2.1)).map fun p => ascii p.1).map Val.str := by simp [Function.comp_def]
    rw [this]
    refine List.Nodup.map ?_ (((hp.map _).nodup_iff).2 hn)
    intro a b h; cases h; rfl

/-- The metatable of a type, and what is found in it. -/
theorem mtOf_spec {f : Nat} (hf : 2 ^ 33 ≤ f) {v : Val} {es : List (String × Meth × Nat)} (h : builtinsOf v = .ok es) :
    ∃ mt, mtOf f v = .ok mt ∧ ∀ k, AWorld.plainKey k → mt.search f k = some (((methodOf v k).map Meth.val).getD .end_) := by
  have hs := builtinsOf_same h
  obtain ⟨t, e, ht⟩ := C01_assignments_partial (builtinOps es) (builtinOps_ok es).1 (builtinOps_ok es).2
    (by have := hs.2.2; simp only [builtinOps, List.length_map]; omega) f hf
  refine ⟨t, by rw [mtOf, h]; dsimp only; rw [e], fun k hk => ?_⟩
  rcases hk with hk | hk
  · rw [ht k hk, specOf_builtin hs]
  · have : methodOf v k = none := by cases k <;> first | rfl | cases hk
    rw [this, Table.search, if_neg (by simp [hk])]; rfl

/-! ## Tables -/

/-- A table from which at most `d` entries were removed, and the map it stands for. -/
structure TRep (d : Nat) (t : Table) (m : Val → Option Val) : Prop where
  good : TGood d (2 ^ 29) t
  abs : Abs t m
  few : d ≤ 7

theorem TRep.new : TRep 0 Table.new (fun _ => none) := ⟨new_good _, new_spec.2, by omega⟩

theorem TRep.search {d f : Nat} (hf : 2 ^ 33 ≤ f) {t : Table} {m : Val → Option Val} (h : TRep d t m) {k : Val} (hk : AWorld.plainKey k) :
    t.search f k = some ((m k).getD .end_) := by
  rcases hk with hk | hk
  · have hs := h.good.size32 (by omega)
    obtain ⟨r, e⟩ := search_total h.good.inv h.good.prime hs (h.good.hasUnused h.few) hk (f := f) (by omega)
    rw [e, search_spec h.good.inv h.abs hk e]
  · have : m k = none := by
      cases hm : m k with
      | none => rfl
      | some v => have := ((h.abs k v).2 hm).1.hashable; rw [this] at hk; cases hk
    rw [this, Table.search, if_neg (by simp [hk])]; rfl

theorem TRep.mem {d : Nat} {t : Table} {kvs : List (Val × Val)} (h : TRep d t (entryAt kvs)) (hnd : (kvs.map Prod.fst).Nodup) :
    t.entries.map Item.key |>.Perm (kvs.map Prod.fst) := by
  refine (List.perm_ext_iff_of_nodup (entries_nodup h.good.inv) hnd).2 fun k => ?_
  have h1 : k ∈ kvs.map Prod.fst ↔ (entryAt kvs k).isSome := by
    rw [entryAt, Option.isSome_map, List.find?_isSome]
    simp only [List.mem_map, decide_eq_true_eq]
  rw [h1, List.mem_map]
  constructor
  · rintro ⟨it, hit, rfl⟩
    have := (h.abs it.key it.value).1 ((entries_mem h.good.inv it).1 hit)
    rw [this]; rfl
  · intro hk
    obtain ⟨v, hv⟩ := Option.isSome_iff_exists.1 hk
    exact ⟨⟨k, v⟩, (entries_mem h.good.inv _).2 ((h.abs k v).2 hv), rfl⟩

theorem TRep.length {d : Nat} {t : Table} {kvs : List (Val × Val)} (h : TRep d t (entryAt kvs)) (hnd : (kvs.map Prod.fst).Nodup) : t.length = kvs.length := by
  have h1 := (h.mem hnd).length_eq
  simp only [List.length_map] at h1
  rw [← h1]; exact h.good.cnt

theorem TRep.insert {d f : Nat} (hf : 2 ^ 33 ≤ f) {t : Table} {m : Val → Option Val} (h : TRep d t m) (hn : t.count < 2 ^ 29) {k v : Val}
    (hg : GoodKey k) (hv : LiveVal v) : ∃ t', t.insertFast f k v = some t' ∧ t.insert f k v = some (t', true) ∧ TRep d t' (fun x => if x = k then some v else m x) ∧
      t'.count ≤ t.count + 1 := by
  obtain ⟨t', e, hg', hc⟩ := insertFast_good h.few (le_refl _) h.good hg hv (by omega) (f := f) (by omega)
  exact ⟨t', e, by rw [Table.insert, if_pos hg.hashable, e]; rfl, ⟨hg', (insertFast_insSpec f t t' k v h.good.inv hg hv e).2 m h.abs, h.few⟩, hc⟩

theorem TRep.rm {d f : Nat} (hf : 2 ^ 33 ≤ f) {t : Table} {m : Val → Option Val} (h : TRep d t m) (hd : d < 7) {k : Val} (hg : GoodKey k) (hp : (m k).isSome) :
    ∃ t', t.rm f k = some t' ∧ TRep (d + 1) t' (fun x => if x = k then none else m x) := by
  obtain ⟨t', e, hg', hc⟩ := rm_good (by omega) (le_refl _) h.good hg h.abs hp (f := f) (by omega)
  exact ⟨t', e, hg', (rm_spec h.good.inv hg e).2 m h.abs, by omega⟩

theorem TRep.insertAll {f : Nat} (hf : 2 ^ 33 ≤ f) : ∀ (l : List Item) {t : Table} {m : Val → Option Val}, TRep 0 t m → (∀ it ∈ l, GoodKey it.key ∧ LiveVal it.value) →
    t.count + l.length ≤ 2 ^ 29 → ∃ t', t.insertAll f l = some t' ∧ TRep 0 t' (updAll m l) ∧ t'.count ≤ t.count + l.length
  | [], t, m, h, _, _ => ⟨t, rfl, h, by simp⟩
  | x :: l, t, m, h, hl, hb => by
    rw [List.length_cons] at hb
    obtain ⟨t1, e1, -, h1, c1⟩ := h.insert hf (by omega) (hl x (by simp)).1 (hl x (by simp)).2
    obtain ⟨t2, e2, h2, c2⟩ := TRep.insertAll hf l h1 (fun it hit => hl it (by simp [hit])) (by omega)
    refine ⟨t2, ?_, h2, by rw [List.length_cons]; omega⟩
    rw [Table.insertAll, List.foldlM_cons, e1]; exact e2

theorem TRep.union {d d' f : Nat} (hf : 2 ^ 33 ≤ f) {x y : Table} {m n : Val → Option Val} (hx : TRep d x m) (hy : TRep d' y n) (hc : x.count + y.count ≤ 2 ^ 29) :
    ∃ t, x.union f y = some t ∧ TRep 0 t (fun k => (n k).or (m k)) := by
  have ca : x.count = x.entries.length := hx.good.cnt
  have cb : y.count = y.entries.length := hy.good.cnt
  obtain ⟨n0, e0, g0, -, c0, -⟩ := newSized_good (N := 2 ^ 29) hx.good.b30 (by have := hx.good.small; omega) (le_refl _) (f := f) (by omega)
  obtain ⟨-, a0, -⟩ := newSized_spec e0
  obtain ⟨n1, e1, g1, c1⟩ := TRep.insertAll hf x.entries (t := n0) ⟨g0, a0, by omega⟩ (fun it hit => entries_live hx.good.inv hit) (by omega)
  obtain ⟨n2, e2, g2, c2⟩ := TRep.insertAll hf y.entries g1 (fun it hit => entries_live hy.good.inv hit) (by omega)
  refine ⟨n2, by simp only [Table.union, e0, Option.bind_eq_bind, Option.bind_some, e1, e2], ?_⟩
  rw [updAll_entries hx.good.inv hx.abs, updAll_entries hy.good.inv hy.abs] at g2
  simpa using g2

theorem entryAt_without (kvs : List (Val × Val)) (k : Val) : entryAt (without kvs k) = fun x => if x = k then none else entryAt kvs x := by
  funext x
  rw [entryAt, without, List.find?_filter]
  by_cases hx : x = k
  · subst hx; simp
  · rw [if_neg hx, entryAt]
    congr 2
    funext p
    by_cases hp : p.1 = x
    · simp [hp, hx]
    · simp [hp]

theorem without_nodup {kvs : List (Val × Val)} (h : (kvs.map Prod.fst).Nodup) (k : Val) : ((without kvs k).map Prod.fst).Nodup :=
  h.sublist ((List.filter_sublist).map _)

theorem entryAt_union (xs ys : List (Val × Val)) : entryAt (unionOf xs ys) = fun k => (entryAt ys k).or (entryAt xs k) := by
  funext k
  rw [entryAt, unionOf, List.find?_append]
  cases hy : ys.find? fun p => decide (p.1 = k) with
  | some p => simp [entryAt, hy]
  | none =>
    have h0 : entryAt ys k = none := by rw [entryAt, hy]; rfl
    rw [h0, Option.none_or, Option.none_or, entryAt, List.find?_filter]
    congr 2
    funext p
    by_cases hp : p.1 = k
    · simp [hp, h0]
    · simp [hp]

theorem union_nodup {xs ys : List (Val × Val)} (hx : (xs.map Prod.fst).Nodup) (hy : (ys.map Prod.fst).Nodup) : ((unionOf xs ys).map Prod.fst).Nodup := by
  rw [unionOf, List.map_append, List.nodup_append]
  refine ⟨hy, hx.sublist ((List.filter_sublist).map _), fun k hk k' hk' e => ?_⟩
  subst e
  obtain ⟨p, hp, rfl⟩ := List.mem_map.1 hk'
  have h1 := (List.mem_filter.1 hp).2
  obtain ⟨q, hq, e⟩ := List.mem_map.1 hk
  rw [Option.isNone_iff_eq_none, entryAt, Option.map_eq_none_iff, List.find?_eq_none] at h1
  exact h1 q hq (by simpa using e)

/-! ## Objects -/

/-- An object, and what it stands for. -/
def WObjRep : CObj → WObj → Prop
  | .table t, .table kvs d => TRep d t (entryAt kvs) ∧ (kvs.map Prod.fst).Nodup
  | .list l, .list xs => l.Holds xs
  | _, _ => False

/-- All objects. -/
structure WRep (w : World) (a : AWorld) : Prop where
  heap : List.Forall₂ WObjRep w.heap a.heap

theorem WRep.empty : WRep ⟨[]⟩ ⟨[]⟩ := ⟨.nil⟩

theorem WRep.length {w : World} {a : AWorld} (r : WRep w a) : w.heap.length = a.heap.length := r.heap.length_eq

theorem WRep.obj {w : World} {a : AWorld} (r : WRep w a) {i : Nat} {o : WObj} (ho : a.heap[i]? = some o) :
    ∃ o', w.heap[i]? = some o' ∧ WObjRep o' o := by
  have hl := r.length
  obtain ⟨hi, rfl⟩ := List.getElem?_eq_some_iff.1 ho
  exact ⟨w.heap[i], List.getElem?_eq_getElem (by omega), r.heap.get (by omega) (by omega)⟩

theorem WRep.list {w : World} {a : AWorld} (r : WRep w a) {i : Nat} {xs : List Val} (ho : a.heap[i]? = some (.list xs)) :
    ∃ l, w.heap[i]? = some (.list l) ∧ l.Holds xs := by
  obtain ⟨o, h1, h2⟩ := r.obj ho
  cases o with
  | table t => exact h2.elim
  | list l => exact ⟨l, h1, h2⟩

theorem WRep.table {w : World} {a : AWorld} (r : WRep w a) {i : Nat} {kvs : List (Val × Val)} {d : Nat} (ho : a.heap[i]? = some (.table kvs d)) :
    ∃ t, w.heap[i]? = some (.table t) ∧ TRep d t (entryAt kvs) ∧ (kvs.map Prod.fst).Nodup := by
  obtain ⟨o, h1, h2⟩ := r.obj ho
  cases o with
  | list t => exact h2.elim
  | table t => exact ⟨t, h1, h2⟩

theorem WRep.putList {w : World} {a : AWorld} (r : WRep w a) (p : Nat) {l : YList} {xs : List Val} (h : l.Holds xs) : WRep (w.put p (.list l)) (a.put p (.list xs)) :=
  ⟨forall₂_set p r.heap (show WObjRep (.list l) (.list xs) from h)⟩

theorem WRep.addList {w : World} {a : AWorld} (r : WRep w a) {l : YList} {xs : List Val} (h : l.Holds xs) : WRep (w.add (.list l)) (a.add (.list xs)) :=
  ⟨forall₂_snoc r.heap (show WObjRep (.list l) (.list xs) from h)⟩

/-- Operations that agree, where the specification says something. -/
def PSim {α : Type} (r : PRes World α) (r' : PRes AWorld α) : Prop := r'.2 = .error .other ∨ (r.2 = r'.2 ∧ WRep r.1 r'.1)

theorem PSim.unknown {α : Type} {r : PRes World α} {a : AWorld} : PSim r (a.unknown) := .inl rfl

theorem PSim.mk {α : Type} {w : World} {a : AWorld} (r : WRep w a) (e : Except RtErr α) : PSim (w, e) (a, e) := .inr ⟨rfl, r⟩

theorem PSim.bind {α β : Type} {r : PRes World α} {r' : PRes AWorld α} {k : World → α → PRes World β} {k' : AWorld → α → PRes AWorld β} (h : PSim r r')
    (hk : ∀ w a x, WRep w a → PSim (k w x) (k' a x)) : PSim (r.bind k) (r'.bind k') := by
  obtain ⟨w, e⟩ := r
  obtain ⟨a, e'⟩ := r'
  rcases h with h | ⟨h1, h2⟩
  · dsimp only at h; subst h; exact .inl rfl
  · dsimp only at h1 h2; subst h1
    cases e with
    | error e => exact .inr ⟨rfl, h2⟩
    | ok x => exact hk _ _ _ h2

section
variable {α : Type} {w : World} {a : AWorld} (r : WRep w a)
include r

theorem WRep.onList {v : Val} {k : Nat → YList → PRes World α} {k' : Nat → List Val → PRes AWorld α}
    (h : ∀ p l xs, v = .ref .list p → w.heap[p]? = some (.list l) → a.heap[p]? = some (.list xs) → l.Holds xs → PSim (k p l) (k' p xs)) :
    PSim (w.checkList v k) (a.onList v k') := by
  cases v with
  | ref kind p =>
    cases kind with
    | list =>
      rw [World.checkList, AWorld.onList]
      rcases hx : a.heap[p]? with _ | (xs | ⟨kvs, d⟩)
      · exact .unknown
      · obtain ⟨l, hl, hh⟩ := r.list hx
        rw [hl]; exact h p l xs rfl hl hx hh
      · exact .unknown
    | _ => exact .mk r _
  | _ => exact .mk r _

theorem WRep.onTable {v : Val} {k : Nat → Table → PRes World α} {k' : Nat → List (Val × Val) → Nat → PRes AWorld α}
    (h : ∀ p t kvs d, v = .ref .table p → w.heap[p]? = some (.table t) → a.heap[p]? = some (.table kvs d) → TRep d t (entryAt kvs) → (kvs.map Prod.fst).Nodup →
      PSim (k p t) (k' p kvs d)) :
    PSim (w.checkTable v k) (a.onTable v k') := by
  cases v with
  | ref kind p =>
    cases kind with
    | table =>
      rw [World.checkTable, AWorld.onTable]
      rcases hx : a.heap[p]? with _ | (xs | ⟨kvs, d⟩)
      · exact .unknown
      · exact .unknown
      · obtain ⟨l, hl, h1, h2⟩ := r.table hx
        rw [hl]; exact h p l kvs d rfl hl hx h1 h2
    | _ => exact .mk r _
  | _ => exact .mk r _

theorem WRep.onInt {v : Val} {k : BitVec 64 → PRes World α} {k' : BitVec 64 → PRes AWorld α} (h : ∀ i, v = .int i → PSim (k i) (k' i)) :
    PSim (w.checkInt v k) (a.onInt v k') := by
  cases v with
  | int i => exact h i rfl
  | _ => exact .mk r _

theorem WRep.onStr {v : Val} {k : YStr → PRes World α} {k' : List Byte → PRes AWorld α} (h : ∀ s, v = .str s → PSim (k (YStr.heap s)) (k' s)) :
    PSim (w.checkStr v k) (a.onStr v k') := by
  cases v with
  | str s => exact h s rfl
  | _ => exact .mk r _
end

theorem strVal_eq {w : World} {s : YStr} {bs : List Byte} (h : s.Holds bs) (k : List Byte → PRes World (List Val)) : w.strVal s k = k bs := by
  rw [World.strVal]
  rw [h.sub0]; rfl
open Spec

/-! ## The text of a value -/

theorem intercalate_comma : ∀ ts : List (List Byte), List.intercalate (methodOf.printedName ", ") ts = commaSep ts
  | [] => rfl
  | [x] => by simp [commaSep, List.intercalate]
  | x :: y :: r => by
    have ih := intercalate_comma (y :: r)
    rw [commaSep, ← ih]
    · simp only [List.intercalate, List.intersperse_cons₂, List.flatten_cons, List.append_assoc]; rfl
    · simp

/-- The objects for printing, and what they stand for. -/
def TextRep (h : List HObj) (a : List WObj) : Prop :=
  (∀ (i : Nat) (xs : List Val), a[i]? = some (.list xs) → h[i]? = some (.list xs)) ∧
  (∀ i d : Nat, a[i]? = some (.table [] d) → ∃ t, h[i]? = some (.table t) ∧ t.count = 0)

theorem mapM_some_iff {α β : Type} {g : α → Option β} : ∀ {l : List α} {r : List β}, l.mapM g = some r → List.Forall₂ (fun x y => g x = some y) l r
  | [], r, h => by simp at h; subst h; exact .nil
  | x :: l, r, h => by
    rw [List.mapM_cons] at h
    cases hx : g x with
    | none => rw [hx] at h; cases h
    | some y =>
      rw [hx] at h
      cases hl : l.mapM g with
      | none => rw [hl] at h; cases h
      | some ys => rw [hl] at h; cases h; exact .cons hx (mapM_some_iff hl)

theorem mapM_some {α β : Type} {g : α → Option β} : ∀ {l : List α}, (∀ x ∈ l, ∃ y, g x = some y) → ∃ r, l.mapM g = some r
  | [], _ => ⟨[], rfl⟩
  | x :: l, h => by
    obtain ⟨y, hy⟩ := h x (by simp)
    obtain ⟨r, hr⟩ := mapM_some (l := l) fun z hz => h z (by simp [hz])
    exact ⟨y :: r, by rw [List.mapM_cons, hy, hr]; rfl⟩

section
variable {h : List HObj} {a : List WObj} (hh : TextRep h a)
include hh

/-- What the printing gives for a value, if the specification has a text. -/
theorem text_sim : ∀ (n : Nat) (anc : List Nat) (v : Val) (t : List Byte), AWorld.text a n anc v = some t →
    ∀ (f sp : Nat) (bb : List Byte), n ≤ f → sp + n + 1 < 1024 →
      printValue World.leafText (printHelper h World.leafText f) sp anc v bb = some (.ok (bb ++ t ++ printBytes ", "))
  | n, anc, .undef, t, ht, f, sp, bb, hf, hs | n, anc, .bool _, t, ht, f, sp, bb, hf, hs | n, anc, .int _, t, ht, f, sp, bb, hf, hs
  | n, anc, .str _, t, ht, f, sp, bb, hf, hs => by
    cases n <;> cases ht <;>
    · rw [printValue, stringifyLeaf, if_neg (by simp [Val.printsDirectly]), pushAt, if_neg (by omega)]
      · rfl
      · simp
      · simp
  | n, anc, .float x, t, ht, f, sp, bb, hf, hs => by
    have : floatToStr x = .ok t := by
      cases n <;>
      · rw [AWorld.text] at ht
        cases hx : floatToStr x <;> rw [hx] at ht <;> cases ht; rfl
    rw [printValue, stringifyLeaf, if_neg (by simp [Val.printsDirectly]), pushAt, if_neg (by omega), World.leafText, this]
    · rfl
    · simp
    · simp
  | 0, _, .end_, t, ht, f, sp, bb, hf, hs | 0, _, .userptr _, t, ht, f, sp, bb, hf, hs | 0, _, .ref _ _, t, ht, f, sp, bb, hf, hs
  | _ + 1, _, .end_, t, ht, f, sp, bb, hf, hs | _ + 1, _, .userptr _, t, ht, f, sp, bb, hf, hs
  | _ + 1, _, .ref .fn _, t, ht, f, sp, bb, hf, hs | _ + 1, _, .ref .cfn _, t, ht, f, sp, bb, hf, hs
  | _ + 1, _, .ref .closure _, t, ht, f, sp, bb, hf, hs | _ + 1, _, .ref .userdata _, t, ht, f, sp, bb, hf, hs => by simp [AWorld.text] at ht
  | n + 1, anc, .ref .table p, t, ht, f, sp, bb, hf, hs => by
    rw [AWorld.text] at ht
    split at ht
    · cases ht
    · rename_i hp
      split at ht
      · rename_i ho
        cases ht
        obtain ⟨tb, h1, h2⟩ := hh.2 p _ ho
        obtain ⟨f, rfl⟩ : ∃ g, f = g + 1 := ⟨f - 1, by omega⟩
        rw [printValue, if_neg (by simpa using hp), printHelper, h1]
        simp only [h2, if_true]; rfl
      · cases ht
  | n + 1, anc, .ref .list p, t, ht, f, sp, bb, hf, hs => by
    rw [AWorld.text] at ht
    split at ht
    · rename_i hp
      cases ht
      rw [printValue, if_pos (by simpa using hp)]
      have : printBytes "[...], " = methodOf.printedName "[...]" ++ printBytes ", " := by decide
      rw [this, List.append_assoc]
    · rename_i hp
      split at ht
      · rename_i xs ho
        obtain ⟨ts, hts, rfl⟩ := Option.map_eq_some_iff.1 ht
        obtain ⟨f, rfl⟩ : ∃ g, f = g + 1 := ⟨f - 1, by omega⟩
        have hts := mapM_some_iff hts
        rw [printValue, if_neg (by simpa using hp), printHelper, hh.1 p xs ho]
        have items : ∀ (xs : List Val) (ts : List (List Byte)), List.Forall₂ (fun x y => AWorld.text a n (anc ++ [p]) x = some y) xs ts → ∀ bb,
            printItems World.leafText (printHelper h World.leafText f) sp (anc ++ [p]) xs bb = some (.ok (buffered bb ts)) := by
          intro xs ts hx
          induction hx with
          | nil => intro bb; simp [printItems, buffered]
          | cons h1 _ ih =>
            intro bb
            rw [printItems, pushAt, if_neg (by omega), text_sim n _ _ _ h1 f (sp + 1) bb (by omega) (by omega), TRes.bind, ih, buffered_cons]
        rw [intercalate_comma]
        cases xs with
        | nil =>
          cases hts
          dsimp only
          rw [if_pos (show ([] : List Val).length = 0 from rfl)]; rfl
        | cons x xs =>
          dsimp only
          have hne : ts ≠ [] := by cases hts; simp
          rw [if_neg (by simp), items _ _ hts, TRes.bind, closeWith_ok _ _ _ hne, TRes.bind]
          rfl
      · cases ht

end

/-! ## Tables -/

theorem entryAt_put (kvs : List (Val × Val)) (k v : Val) : entryAt (putEntry kvs k v) = fun x => if x = k then some v else entryAt kvs x := by
  funext x
  rw [entryAt, putEntry, List.find?_cons]
  by_cases hx : k = x
  · subst hx; simp
  · have hx' : ¬ x = k := fun e => hx e.symm
    simp only [hx, decide_false, if_neg hx', entryAt]
    congr 1
    rw [List.find?_filter]
    congr 1
    funext p
    by_cases hp : p.1 = x
    · simp [hp, hx']
    · simp [hp]

theorem putEntry_nodup {kvs : List (Val × Val)} (h : (kvs.map Prod.fst).Nodup) (k v : Val) : ((putEntry kvs k v).map Prod.fst).Nodup := by
  rw [putEntry, List.map_cons, List.nodup_cons]
  refine ⟨by simp, ?_⟩
  exact (h.sublist ((List.filter_sublist).map _))

theorem WRep.putTable {w : World} {a : AWorld} (r : WRep w a) (p : Nat) {t : Table} {kvs : List (Val × Val)} {d : Nat} (h : TRep d t (entryAt kvs))
    (hn : (kvs.map Prod.fst).Nodup) : WRep (w.put p (.table t)) (a.put p (.table kvs d)) :=
  ⟨forall₂_set p r.heap (show WObjRep (.table t) (.table kvs d) from ⟨h, hn⟩)⟩

theorem WRep.addTable {w : World} {a : AWorld} (r : WRep w a) {t : Table} {kvs : List (Val × Val)} {d : Nat} (h : TRep d t (entryAt kvs))
    (hn : (kvs.map Prod.fst).Nodup) : WRep (w.add (.table t)) (a.add (.table kvs d)) :=
  ⟨forall₂_snoc r.heap (show WObjRep (.table t) (.table kvs d) from ⟨h, hn⟩)⟩

/-- Removing an entry. -/
theorem remove_sim {α : Type} {f : Nat} (hf : 2 ^ 33 ≤ f) {w : World} {a : AWorld} (r : WRep w a) {t : Table} {kvs : List (Val × Val)} {d : Nat}
    (ht : TRep d t (entryAt kvs)) (hn : (kvs.map Prod.fst).Nodup) (p : Nat) (k : Val) (x : α) (hp : w.heap[p]? = some (.table t)) :
    PSim (match t.rm f k with
      | some t => (w.put p (.table t), .ok x)
      | none => (w, .error .other)) (a.remove p kvs d k x) := by
  rw [AWorld.remove]
  by_cases hk : k.hashable = false
  · rw [if_pos hk, Table.rm, if_neg (by simp [hk])]
    dsimp only
    have : w.put p (.table t) = w := by
      rw [World.put]
      congr 1
      obtain ⟨h, e⟩ := List.getElem?_eq_some_iff.1 hp
      rw [← e]; exact List.set_getElem_self h
    rw [this]; exact .mk r _
  · rw [if_neg hk]
    by_cases hg : GoodKey k ∧ (entryAt kvs k).isSome ∧ d < 7
    · rw [if_pos hg]
      obtain ⟨t', e, h'⟩ := ht.rm hf hg.2.2 hg.1 hg.2.1
      rw [e]
      rw [← entryAt_without] at h'
      exact .inr ⟨rfl, r.putTable p h' (without_nodup hn k)⟩
    · rw [if_neg hg]; exact .unknown

theorem WRep.textRep {w : World} {a : AWorld} (r : WRep w a) : ∃ h, w.heap.mapM World.hobj = some h ∧ TextRep h a.heap := by
  have hex : ∀ x ∈ w.heap, ∃ y, World.hobj x = some y := by
    intro x hx
    obtain ⟨i, hi⟩ := List.mem_iff_getElem?.1 hx
    have hlt : i < a.heap.length := by rw [← r.length]; exact (List.getElem?_eq_some_iff.1 hi).1
    obtain ⟨o, h1, h2⟩ := r.obj (List.getElem?_eq_getElem hlt)
    rw [hi] at h1; cases h1
    cases x with
    | table t => exact ⟨_, rfl⟩
    | list l =>
      cases ho : a.heap[i] with
      | table kvs d => rw [ho] at h2; exact h2.elim
      | list xs => rw [ho] at h2; exact ⟨.list xs, by rw [World.hobj, Holds.forItems h2]⟩
  obtain ⟨h, hm⟩ := mapM_some hex
  refine ⟨h, hm, fun i xs hi => ?_, fun i d hi => ?_⟩
  · obtain ⟨l, hl, hx⟩ := r.list hi
    have hf := mapM_some_iff hm
    obtain ⟨hlt, e⟩ := List.getElem?_eq_some_iff.1 hl
    have h' : i < h.length := hf.length_eq ▸ hlt
    have := hf.get (i := i) hlt h'
    simp only [List.get_eq_getElem] at this
    rw [e, World.hobj, Holds.forItems hx] at this
    rw [List.getElem?_eq_getElem h']; exact this.symm
  · obtain ⟨l, hl, hx, hn⟩ := r.table hi
    have hf := mapM_some_iff hm
    obtain ⟨hlt, e⟩ := List.getElem?_eq_some_iff.1 hl
    have h' : i < h.length := hf.length_eq ▸ hlt
    have := hf.get (i := i) hlt h'
    simp only [List.get_eq_getElem] at this
    rw [e, World.hobj] at this
    refine ⟨l, by rw [List.getElem?_eq_getElem h']; exact this.symm, ?_⟩
    have := hx.length hn
    simpa [Table.length] using this

/-- `tostr` of lists and tables. -/
theorem textOf_sim {f : Nat} (hf : 2 ^ 33 ≤ f) {w : World} {a : AWorld} (r : WRep w a) {p : Nat} {t : List Byte} {v : Val} (hv : v = .ref .list p ∨ v = .ref .table p)
    (ht : AWorld.text a.heap 500 [] v = some t) : w.textOf f p = (w, .ok [.str t]) := by
  obtain ⟨h, hm, hh⟩ := r.textRep
  have := text_sim hh 500 [] v t ht f 0 [] (by omega) (by omega)
  rw [World.textOf, hm]
  dsimp only
  rw [Yasl.tostr]
  have key : TRes.bind (printHelper h World.leafText f 0 ([] ++ [p]) p) (fun str => some (.ok ([] ++ str ++ printBytes ", "))) = some (.ok ([] ++ t ++ printBytes ", ")) := by
    rcases hv with rfl | rfl
    · rw [printValue, if_neg (by simp)] at this; exact this
    · rw [printValue, if_neg (by simp)] at this; exact this
  cases hp : printHelper h World.leafText f 0 ([] ++ [p]) p with
  | none => rw [hp] at key; cases key
  | some x =>
    rw [hp] at key
    cases x with
    | overflow => cases key
    | ub => cases key
    | ok str =>
      have : str = t := by
        simp only [TRes.bind, List.nil_append, Option.some.injEq, TRes.ok.injEq] at key
        exact List.append_cancel_right key
      subst this
      simp only [List.nil_append] at hp
      rw [hp]

/-! ## Methods -/

theorem feq_self (x : BitVec 64) : feq x x = !fnan x := by unfold feq; simp

theorem strList_sim {w : World} {a : AWorld} (r : WRep w a) {ps : List YStr} {bs : List (List Byte)} (h : HoldAll ps bs) :
    PSim (w.strList ps) ((a.newList (bs.map Val.str)).bind fun a v => (a, .ok [v])) := by
  have e : (ps.foldr (fun p r => (p.sub 0 p.len).bind fun b => r.bind fun bs => .ok (.str b :: bs)) (.ok [])) = Out.ok (bs.map Val.str) := by
    induction h with
    | nil => rfl
    | cons h1 _ ih => rw [List.foldr_cons, ih, h1.sub0]; rfl
  rw [World.strList, e]
  obtain ⟨l, e, hl⟩ := Holds.appendAll (show YList.new.Holds [] from Holds.newSized _) (bs.map Val.str)
  rw [World.out, e, World.out, AWorld.newList, r.length]
  exact .inr ⟨rfl, r.addList (by simpa using hl)⟩

theorem elemText_float {f : Nat} {w : World} (x : BitVec 64) : w.elemText f (.float x) = match floatToStr x with
    | .ok t => .ok t
    | _ => .error .ub := rfl

theorem elemText_obj {f : Nat} {w : World} {p : Nat} {t : List Byte} (h : w.textOf f p = (w, .ok [.str t])) :
    w.elemText f (.ref .list p) = .ok t ∧ w.elemText f (.ref .table p) = .ok t := by
  constructor <;>
  · unfold World.elemText
    dsimp only
    rw [h]

theorem elemText_sim {f : Nat} (hf : 2 ^ 33 ≤ f) {w : World} {a : AWorld} (r : WRep w a) {v : Val} {t : List Byte} (ht : AWorld.text a.heap 500 [] v = some t) :
    w.elemText f v = .ok t := by
  cases v with
  | end_ => simp [AWorld.text] at ht
  | userptr p => simp [AWorld.text] at ht
  | undef => rw [AWorld.text] at ht; cases ht; rfl
  | bool b => rw [AWorld.text] at ht; cases ht; rfl
  | int i => rw [AWorld.text] at ht; cases ht; rfl
  | str s => rw [AWorld.text] at ht; cases ht; rfl
  | float x =>
    rw [AWorld.text] at ht
    rw [elemText_float]
    cases hx : floatToStr x <;> rw [hx] at ht <;> cases ht; rfl
  | ref k p =>
    cases k with
    | list => exact (elemText_obj (textOf_sim hf r (.inl rfl) ht)).1
    | table => exact (elemText_obj (textOf_sim hf r (.inr rfl) ht)).2
    | _ => simp [AWorld.text] at ht

theorem texts_sim {f : Nat} (hf : 2 ^ 33 ≤ f) {w : World} {a : AWorld} (r : WRep w a) : ∀ {xs : List Val} {ts : List (List Byte)}, a.texts xs = some ts →
    xs.mapM (w.elemText f) = .ok ts
  | [], ts, h => by cases h; rfl
  | x :: xs, ts, h => by
    rw [AWorld.texts, List.mapM_cons] at h
    cases hx : AWorld.text a.heap 500 [] x with
    | none => rw [hx] at h; cases h
    | some t =>
      rw [hx] at h
      cases hr : a.texts xs with
      | none => rw [AWorld.texts] at hr; rw [hr] at h; cases h
      | some us =>
        have ih := texts_sim hf r hr
        rw [AWorld.texts] at hr; rw [hr] at h
        cases h
        rw [List.mapM_cons, elemText_sim hf r hx, ih]; rfl

theorem repeatBytes_zero (n : Nat) : repeatBytes n ([] : List Byte) = [] := by simp [repeatBytes]

theorem firstAt_of {t s : List Byte} {o : Option Nat}
    (h : (o = none ∧ ¬ t <:+: s) ∨ (∃ i, o = some i ∧ t <+: s.drop i ∧ i ≤ s.length ∧ ∀ j < i, ¬ t <+: s.drop j)) : AWorld.firstAt t s = o := by
  rw [AWorld.firstAt]
  rcases h with ⟨rfl, h⟩ | ⟨i, rfl, h1, h2, h3⟩
  · rw [List.find?_eq_none]
    intro i _ hc
    exact h ((of_decide_eq_true hc).isInfix.trans (List.drop_suffix i s).isInfix)
  · rw [List.find?_range_eq_some]
    refine ⟨by simpa using h1, by simp; omega, fun j hj => ?_⟩
    simpa using h3 j hj

theorem lastAt_of {xs : List Val} {v r : Val}
    (h : (r = .undef ∧ ∀ x ∈ xs, isEqual x v = false) ∨
      (∃ k x, xs[k]? = some x ∧ isEqual x v = true ∧ r = .int (BitVec.ofNat 64 k) ∧ ∀ j w, k < j → xs[j]? = some w → isEqual w v = false)) : AWorld.lastAt xs v = r := by
  rw [AWorld.lastAt]
  rcases h with ⟨rfl, h⟩ | ⟨k, x, h1, h2, rfl, h3⟩
  · rw [List.find?_eq_none.2]
    intro i _
    cases hi : xs[i]? with
    | none => simp
    | some y => simp [h y (List.mem_of_getElem? hi)]
  · have hk : k < xs.length := (List.getElem?_eq_some_iff.1 h1).1
    have : (List.range xs.length).reverse.find? (fun i => (xs[i]?).any fun x => isEqual x v) = some k := by
      obtain ⟨n, hn⟩ : ∃ n, xs.length = k + 1 + n := ⟨xs.length - (k + 1), by omega⟩
      rw [hn, List.range_add, List.reverse_append, List.find?_append, List.find?_eq_none.2, List.range_succ, List.reverse_append]
      · simp [h1, h2]
      · intro i hi
        simp only [List.mem_reverse, List.mem_map, List.mem_range] at hi
        obtain ⟨j, hj, rfl⟩ := hi
        cases hx : xs[k + 1 + j]? with
        | none => simp
        | some y => simp [h3 _ y (by omega) hx]
    rw [this]

section
variable {f : Nat} (hf : 2 ^ 33 ≤ f) (strtod : List Byte → BitVec 64) {w : World} {a : AWorld} (r : WRep w a)
include hf r

theorem call_sim (m : Meth) (arg : Nat → Val) : PSim (w.callMeth f strtod m arg) (a.call m arg) := by
  have hs : ∀ s : List Byte, (YStr.heap s).Holds s := YStr.holds_heap
  cases m with
  | undefTostr =>
    rw [World.callMeth, AWorld.call]
    cases h0 : arg 0 with
    | undef => exact .mk r _
    | ref k p => cases k <;> exact .mk r _
    | _ => exact .mk r _
  | undefTobool =>
    rw [World.callMeth, AWorld.call]
    cases h0 : arg 0 with
    | ref k p => cases k <;> exact .mk r _
    | _ => exact .mk r _
  | boolTostr =>
    rw [World.callMeth, AWorld.call]
    cases h0 : arg 0 with
    | ref k p => cases k <;> exact .mk r _
    | _ => exact .mk r _
  | boolTobool =>
    rw [World.callMeth, AWorld.call]
    cases h0 : arg 0 with
    | ref k p => cases k <;> exact .mk r _
    | _ => exact .mk r _
  | intTostr =>
    rw [World.callMeth, AWorld.call]
    cases h0 : arg 0 with
    | ref k p => cases k <;> exact .mk r _
    | _ => exact .mk r _
  | floatTostr =>
    rw [World.callMeth, AWorld.call]
    cases h0 : arg 0 with
    | float x =>
      rw [World.checkFloat, if_pos (by rfl), AWorld.tostr, AWorld.text]
      cases floatToStr x with
      | ok t => exact .mk r _
      | _ => exact .unknown
    | ref k p => cases k <;> exact .mk r _
    | _ => exact .mk r _
  | strTostr =>
    rw [World.callMeth, AWorld.call]
    cases h0 : arg 0 with
    | str s =>
      rw [World.checkStr, if_pos (by rfl), strVal_eq (hs s)]
      exact .mk r _
    | ref k p => cases k <;> exact .mk r _
    | _ => exact .mk r _
  | intToint => exact r.onInt fun i _ => .mk r _
  | intTobool => exact r.onInt fun i _ => .mk r _
  | intTofloat => exact r.onInt fun i _ => .mk r _
  | floatToint =>
    rw [World.callMeth, AWorld.call]
    cases h0 : arg 0 with
    | float x =>
      rw [World.checkFloat]; dsimp only
      cases floatToInt x with
      | none => exact .unknown
      | some i => exact .mk r _
    | _ => exact .mk r _
  | floatTobool =>
    rw [World.callMeth, AWorld.call]
    cases h0 : arg 0 with
    | float x => rw [World.checkFloat, feq_self]; exact .mk r _
    | _ => exact .mk r _
  | floatTofloat =>
    rw [World.callMeth, AWorld.call]
    cases h0 : arg 0 with
    | float x => exact .mk r _
    | _ => exact .mk r _
  | strToint =>
    refine r.onStr fun s _ => ?_
    rw [(hs s).sub0, Out.bind_ok]
    cases strToInt s with
    | ok i => exact .mk r _
    | _ => exact .unknown
  | strLen =>
    refine r.onStr fun s _ => ?_
    rw [(hs s).len]; exact .mk r _
  | listLen =>
    refine r.onList fun p l xs _ _ _ hl => ?_
    rw [hl.count]; exact .mk r _
  | tableLen =>
    refine r.onTable fun p t kvs d _ _ _ ht hnd => ?_
    rw [ht.length hnd]; exact .mk r _
  | strTobool =>
    refine r.onStr fun s _ => ?_
    rw [(hs s).len]
    have : decide (s.length ≠ 0) = decide (s ≠ []) := by rw [decide_eq_decide]; simp
    rw [this]; exact .mk r _
  | strToupper =>
    refine r.onStr fun s _ => ?_
    obtain ⟨p, e, hp⟩ := C50_toupper _ s (hs s)
    rw [e, World.out, strVal_eq hp]; exact .mk r _
  | strTolower =>
    refine r.onStr fun s _ => ?_
    obtain ⟨p, e, hp⟩ := C50_tolower _ s (hs s)
    rw [e, World.out, strVal_eq hp]; exact .mk r _
  | strStartswith =>
    refine r.onStr fun s _ => r.onStr fun t _ => ?_
    rw [C50_startswith _ _ s t (hs s) (hs t)]; exact .mk r _
  | strEndswith =>
    refine r.onStr fun s _ => r.onStr fun t _ => ?_
    rw [C50_endswith _ _ s t (hs s) (hs t)]; exact .mk r _
  | strIsspace =>
    refine r.onStr fun s _ => ?_
    rw [C70_isspace _ s (hs s)]
    have : decide (∀ c ∈ s, IsSpace c) = decide (∀ c ∈ s, c ∈ [0x20#8, 0x09#8, 0x0A#8, 0x0B#8, 0x0D#8]) := by
      rw [decide_eq_decide]
      refine forall₂_congr fun c _ => ?_
      rw [← isWs_iff]; simp [isWs, or_assoc]
    rw [this]
    exact .mk r _
  | strSearch =>
    refine r.onStr fun t _ => r.onStr fun s _ => ?_
    have h := C45_search _ _ s t (hs s) (hs t)
    cases ho : strFind (YStr.heap s) (YStr.heap t) with
    | ok o =>
      rw [ho] at h
      have : AWorld.firstAt t s = o := firstAt_of (by
        rcases h with ⟨h1, h2⟩ | ⟨i, h1, h2⟩
        · cases h1; exact .inl ⟨rfl, h2⟩
        · cases h1; exact .inr ⟨i, rfl, h2⟩)
      rw [this, World.out]
      cases o <;> exact .mk r _
    | _ => rw [ho] at h; rcases h with ⟨h1, -⟩ | ⟨i, h1, -⟩ <;> cases h1
  | strRep =>
    refine r.onInt fun n _ => r.onStr fun s _ => ?_
    by_cases hn : n.toInt < 0
    · rw [if_pos hn]
      have : strRep f (YStr.heap s) n = some .valueError := by rw [strRep, if_pos hn]
      rw [this]; exact .mk r _
    · rw [if_neg hn]
      split
      · rename_i hb
        have hrep : strRep f (YStr.heap s) n = some (.ok ((repeatBytes n.toNat s).map some)) := by
          by_cases hs0 : s = []
          · subst hs0
            obtain ⟨g, rfl⟩ : ∃ g, f = g + 1 := ⟨f - 1, by omega⟩
            rw [C50_rep_empty _ (hs []) n (by omega) g, repeatBytes_zero]; rfl
          · refine (C50_rep_partial _ s (hs s) hs0 n f (by omega)).1 (by omega) ?_
            have : n.toNat * s.length < 2 ^ 31 * 2 ^ 31 := Nat.mul_lt_mul'' hb.1 hb.2
            omega
        rw [hrep]
        show PSim (match List.mapM id ((repeatBytes n.toNat s).map some) with
          | some b => (w, .ok [Val.str b])
          | none => (w, .error .ub)) _
        rw [mapM_id_some]
        exact .mk r _
      · exact .unknown
  | strLtrim =>
    rw [World.callMeth, AWorld.call]
    cases arg 1 with
    | undef =>
      refine r.onStr fun s _ => ?_
      split
      · rename_i hl
        obtain ⟨p, e, hp⟩ := strLtrimWs_eq (hs s) f (by omega)
        rw [e, World.run, World.out, strVal_eq hp, trimLeft_eq]; exact .mk r _
      · exact .unknown
    | _ =>
      refine r.onStr fun t _ => r.onStr fun s _ => ?_
      rw [AWorld.small]
      split
      · rename_i hc
        obtain ⟨p, u, k, e, hp, h1, h2⟩ := C49_ltrim _ _ s t (hs s) (hs t) hc.2 f (by omega)
        have := stripLeft_eq hc.2 h2 k s.length (by rw [← h1])
        rw [← h1] at this
        rw [e, World.run, World.out, strVal_eq hp, this]; exact .mk r _
      · exact .unknown
  | strRtrim =>
    rw [World.callMeth, AWorld.call]
    cases arg 1 with
    | undef =>
      refine r.onStr fun s _ => ?_
      obtain ⟨p, e, hp⟩ := strRtrimWs_eq (hs s)
      rw [e, World.out, strVal_eq hp, trimRight_eq]; exact .mk r _
    | _ =>
      refine r.onStr fun t _ => r.onStr fun s _ => ?_
      rw [AWorld.small]
      split
      · rename_i hc
        obtain ⟨p, u, k, e, hp, h1, h2⟩ := C49_rtrim _ _ s t (hs s) (hs t) hc.2 f (by omega)
        have := stripRight_eq hc.2 h2 k s.length (by rw [← h1])
        rw [← h1] at this
        rw [e, World.run, World.out, strVal_eq hp, this]; exact .mk r _
      · exact .unknown
  | strTrim =>
    rw [World.callMeth, AWorld.call]
    cases arg 1 with
    | undef =>
      refine r.onStr fun s _ => ?_
      split
      · rename_i hc
        obtain ⟨p, m, t, e, hp, h1, h2⟩ := C49_trim_default_partial _ s (hs s) hc.2 f (by omega)
        rw [e, World.run, World.out, strVal_eq hp, rtrimmed_eq h2, ltrimmed_eq h1, trimRight_eq, trimLeft_eq]; exact .mk r _
      · exact .unknown
    | _ =>
      refine r.onStr fun t _ => r.onStr fun s _ => ?_
      split
      · rename_i ho
        rw [AWorld.small]
        split
        · rename_i hc
          obtain ⟨p, e, hp⟩ := strTrim_eq (hs s) (hs t) hc.2 f (by omega) ho
          rw [e, World.run, World.out, strVal_eq hp]; exact .mk r _
        · exact .unknown
      · exact .unknown
  | strIsal =>
    refine r.onStr fun s _ => ?_
    split
    · rw [(C70_is_partial _ s (hs s) ‹_›).1]; exact .mk r _
    · exact .unknown
  | strIsnum =>
    refine r.onStr fun s _ => ?_
    split
    · rw [(C70_is_partial _ s (hs s) ‹_›).2.1]; exact .mk r _
    · exact .unknown
  | strIsalnum =>
    refine r.onStr fun s _ => ?_
    split
    · rw [(C70_is_partial _ s (hs s) ‹_›).2.2]; exact .mk r _
    · exact .unknown
  | strCount =>
    refine r.onStr fun t _ => r.onStr fun s _ => ?_
    rw [AWorld.small]
    split
    · rename_i hc
      rw [C47_count_partial _ _ s t (hs s) (hs t) hc.2 _ (pieces_cut hc.2 s.length s le_rfl) f (by omega)]; exact .mk r _
    · exact .unknown
  | strReplace =>
    rw [World.callMeth, AWorld.call]
    cases arg 3 with
    | undef =>
      refine r.onStr fun u _ => r.onStr fun t _ => r.onStr fun s _ => ?_
      split
      · rename_i h0
        subst h0
        rw [C46_replace_empty _ _ _ (hs [])]; exact .mk r _
      · rename_i h0
        rw [AWorld.small]
        split
        · obtain ⟨p, e, hp⟩ := C46_replace _ _ _ s t u (hs s) (hs t) (hs u) h0 _ (pieces_cut h0 s.length s le_rfl) f (by omega)
          rw [e, World.run, World.out, strVal_eq hp]; exact .mk r _
        · exact .unknown
    | _ =>
      refine r.onInt fun n _ => r.onStr fun u _ => r.onStr fun t _ => r.onStr fun s _ => ?_
      split
      · rename_i h0
        subst h0
        rw [strReplaceMax, (hs []).len, if_pos (by simp)]; exact .mk r _
      · rename_i h0
        split
        · rename_i hn
          rw [AWorld.small]
          split
          · obtain ⟨p, e, hp⟩ := (C46_replace_limit_partial _ _ _ s t u (hs s) (hs t) (hs u) h0 _ (pieces_cut h0 s.length s le_rfl) n f (by omega)).1 hn
            rw [e, World.run, World.out, strVal_eq hp]; exact .mk r _
          · exact .unknown
        · split
          · rename_i hn
            rw [AWorld.small]
            split
            · obtain ⟨p, e, hp⟩ := (C46_replace_limit_partial _ _ _ s t u (hs s) (hs t) (hs u) h0 _ (pieces_cut h0 s.length s le_rfl) n f (by omega)).2 hn.1 (by omega)
              rw [e, World.run, World.out, strVal_eq hp]; exact .mk r _
            · exact .unknown
          · exact .unknown
  | strSplit =>
    rw [World.callMeth, AWorld.call]
    cases arg 1 with
    | undef =>
      refine r.onStr fun s _ => ?_
      split
      · obtain ⟨ps, e, hp⟩ := C48_split_default _ s (hs s) _ (words_words (s.length + 1) s (by omega)) f (by omega)
        rw [e, World.run, World.out]; exact strList_sim r hp
      · exact .unknown
    | _ =>
      refine r.onStr fun t _ => r.onStr fun s _ => ?_
      split
      · rename_i h0
        subst h0
        rw [C48_split_empty _ _ (hs [])]; exact .mk r _
      · split
        · rename_i h0 hc
          obtain ⟨c, rfl⟩ := List.length_eq_one_iff.1 hc.1
          obtain ⟨out, ps, e, hp, hcut, -⟩ := C48_split_partial _ _ s c (hs s) (hs [c]) f (by omega)
          have := (C46_cut_exists_unique [c] s (by simp)).1.unique hcut (pieces_cut (by simp) s.length s le_rfl)
          rw [e, World.run, World.out, ← this]; exact strList_sim r hp
        · exact .unknown
  | listJoin =>
    refine r.onStr fun t _ => r.onList fun p l xs h0 _ _ hl => ?_
    rw [strVal_eq (hs t), World.joined, Holds.forItems hl, World.out]
    cases ht : a.texts xs with
    | none => exact .unknown
    | some ts =>
      rw [texts_sim hf r ht]
      dsimp only
      have e : (ts.map Val.str).map World.bytesOf = ts := by simp [Function.comp_def, World.bytesOf]
      by_cases hlen : (List.intercalate t ts).length < 2 ^ 31
      · rw [if_pos hlen, listJoin_eq _ _ _ f (by rw [e]; omega), e]
        dsimp only [World.out]
        rw [mapM_id_some]; exact .mk r _
      · rw [if_neg hlen]; exact .unknown
  | listPush =>
    refine r.onList fun p l xs _ _ _ hl => ?_
    obtain ⟨l', e, hl'⟩ := C37_op_correct l xs hl (.push (arg 1))
    rw [runOp] at e
    rw [e]; exact .inr ⟨rfl, r.putList p hl'⟩
  | listPop =>
    refine r.onList fun p l xs _ _ _ hl => ?_
    cases hx : xs.reverse with
    | nil =>
      have : xs = [] := by simpa using hx
      subst this
      have e := C37_op_correct l [] hl .pop
      simp only [LOp.step, if_true, runOp] at e
      have e' : listPop l = .valueError := by rw [listPop, if_pos (by simpa using hl.count)]
      rw [e']; exact .mk r _
    | cons x rs =>
      have : xs = rs.reverse ++ [x] := by rw [← List.reverse_reverse xs, hx]; simp
      subst this
      obtain ⟨l', e, hl'⟩ := C37_pop_value l _ x hl
      rw [e]
      dsimp only
      split
      · exact .unknown
      · exact .inr ⟨rfl, r.putList p hl'⟩
  | listInsert =>
    refine r.onInt fun i _ => r.onList fun p l xs _ _ _ hl => ?_
    have h := C37_op_correct l xs hl (.insert i (arg 2))
    rw [runOp] at h
    cases ho : (LOp.insert i (arg 2)).step xs with
    | none => rw [ho] at h; rw [h]; exact .mk r _
    | some ys =>
      rw [ho] at h
      obtain ⟨l', e, hl'⟩ := h
      rw [e]; exact .inr ⟨rfl, r.putList p hl'⟩
  | listReverse =>
    refine r.onList fun p l xs _ _ _ hl => ?_
    obtain ⟨l', e, hl'⟩ := Holds.reverse hl
    rw [e]; exact .inr ⟨rfl, r.putList p hl'⟩
  | listClear =>
    refine r.onList fun p l xs _ _ _ hl => ?_
    obtain ⟨l', e, hl'⟩ := C37_op_correct l xs hl .clear
    rw [runOp] at e
    rw [e]; exact .inr ⟨rfl, r.putList p hl'⟩
  | listCopy =>
    refine r.onList fun p l xs _ _ _ hl => ?_
    obtain ⟨l', e, hl'⟩ := C38_copy l xs hl
    rw [e, World.out, r.length]; exact .inr ⟨rfl, r.addList hl'⟩
  | listCount =>
    refine r.onList fun p l xs _ _ _ hl => ?_
    rw [C42_count l xs hl]; exact .mk r _
  | listSearch =>
    refine r.onList fun p l xs _ _ _ hl => ?_
    have h := C42_search l xs hl (arg 1)
    cases ho : listSearch l (arg 1) with
    | ok v =>
      rw [ho] at h
      have : AWorld.lastAt xs (arg 1) = v := lastAt_of (by
        rcases h with ⟨h1, h2⟩ | ⟨k, x, h1, h2, h3, h4⟩
        · cases h1; exact .inl ⟨rfl, h2⟩
        · cases h3; exact .inr ⟨k, x, h1, h2, rfl, h4⟩)
      rw [this]; exact .mk r _
    | _ => rw [ho] at h; rcases h with ⟨h1, -⟩ | ⟨k, x, -, -, h1, -⟩ <;> cases h1
  | listSpread =>
    refine r.onList fun p l xs _ _ _ hl => ?_
    rw [C38_spread l xs hl]
    split
    · exact .unknown
    · exact .mk r _
  | listTostr =>
    refine r.onList fun p l xs h0 _ _ hl => ?_
    rw [AWorld.tostr]
    cases ht : AWorld.text a.heap 500 [] (arg 0) with
    | none => exact .unknown
    | some t => rw [textOf_sim hf r (.inl h0) ht]; exact .mk r _
  | tableRemove =>
    refine r.onTable fun p t kvs d _ hp _ ht hnd => ?_
    exact remove_sim hf r ht hnd p (arg 1) [arg 0] hp
  | _ => exact .unknown

end
end Yasl
