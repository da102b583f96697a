import Verif.Model.Libs
import Verif.Spec.Index
import Verif.Props.Host
import Verif.Props.Globals
set_option autoImplicit false
/-!
# C114 — declaring the libraries

`Verif.Spec.Libs` lists what the libraries are.
-/
namespace Yasl

/-- The value is what is listed: a C function with its number of arguments, a number, a file whose methods are those of the table at `q`. -/
def Offers (q : Nat) (heap : List LObj) (v : Val) : LibEntry → Prop
  | .fn c n => ∃ p, v = .ref .cfn p ∧ heap[p]? = some (.cfn c n)
  | .num x => v = .float x
  | .file s => ∃ p, v = .ref .userdata p ∧ heap[p]? = some (.userdata s "io.file" (some q))

/-- The table at `a` has what is listed under the names, and nothing else. -/
def HasLib (q : Nat) (heap : List LObj) (a : Nat) (es : List (String × LibEntry)) : Prop :=
  ∃ t m n, heap[a]? = some (.table t) ∧ n ≤ 2 ^ 29 ∧ TableRep n t m ∧ (∀ k, (∀ e ∈ es, k ≠ nameKey e.1) → m k = none) ∧
    ∀ e ∈ es, ∃ v, m (nameKey e.1) = some v ∧ Offers q heap v e.2

/-- The names declared for the compiler, the values of globals and the metatables, as maps, after at most `n` assignments each. -/
structure LibRep (n : Nat) (h : LHost) (sc gl me : Val → Option Val) : Prop where
  scope : TableRep n h.scope sc
  globals : TableRep n h.globals gl
  metas : TableRep n h.metas me

/-- The objects that were there are still there, and are the same. -/
def HeapGrows (heap heap' : List LObj) : Prop := ∀ (p : Nat) (o : LObj), heap[p]? = some o → heap'[p]? = some o

theorem HeapGrows.refl (x : List LObj) : HeapGrows x x := fun _ _ h => h
theorem HeapGrows.trans {x y z : List LObj} (h : HeapGrows x y) (g : HeapGrows y z) : HeapGrows x z := fun p o e => g p o (h p o e)

theorem Offers.mono {q : Nat} {x y : List LObj} (h : HeapGrows x y) {v : Val} : ∀ {e : LibEntry}, Offers q x v e → Offers q y v e
  | .fn _ _, ⟨p, e1, e2⟩ => ⟨p, e1, h _ _ e2⟩
  | .num _, e => e
  | .file _, ⟨p, e1, e2⟩ => ⟨p, e1, h _ _ e2⟩

theorem HasLib.mono {q a : Nat} {x y : List LObj} (h : HeapGrows x y) {es : List (String × LibEntry)} (r : HasLib q x a es) : HasLib q y a es := by
  obtain ⟨t, m, n, h1, h2, h3, h4, h5⟩ := r
  refine ⟨t, m, n, h _ _ h1, h2, h3, h4, fun e he => ?_⟩
  obtain ⟨v, e1, e2⟩ := h5 e he
  exact ⟨v, e1, e2.mono h⟩

theorem TableRep.str {n f : Nat} (hn : n ≤ 2 ^ 29) (hf : 2 ^ 33 ≤ f) {t : Table} {m : Val → Option Val} (h : TableRep n t m) (s : String) :
    t.search f (.str (ascii s)) = some ((m (nameKey s)).getD .end_) := by
  obtain ⟨ops, h1, h2, h3, h4, rfl⟩ := h
  exact StrTable.search (L := ops) ⟨h4 f hf, h1, h2⟩ hf (by omega) (ascii s)

theorem TableRep.count_le {n : Nat} (hn : n ≤ 2 ^ 29) {t : Table} {m : Val → Option Val} (h : TableRep n t m) : t.count ≤ 2 ^ 29 := by
  obtain ⟨ops, h1, h2, h3, h4, rfl⟩ := h
  exact StrTable.count (f := 2 ^ 33) (L := ops) ⟨h4 _ le_rfl, h1, h2⟩ le_rfl (by omega)

/-- The map with one more entry. -/
def withEntry (m : Val → Option Val) (k v : Val) : Val → Option Val := fun x => if x = k then some v else m x

theorem TableRep.put {n f : Nat} (hn : n < 2 ^ 29) (hf : 2 ^ 33 ≤ f) {t : Table} {m : Val → Option Val} (h : TableRep n t m) (s : String) {v : Val} (hv : LiveVal v) :
    ∃ t', t.insert f (.str (ascii s)) v = some (t', true) ∧ t.insertFast f (.str (ascii s)) v = some t' ∧ TableRep (n + 1) t' (withEntry m (nameKey s) v) := by
  obtain ⟨t', e, ht⟩ := TableRep.insert hn hf h (k := nameKey s) (v := v) rfl trivial hv
  refine ⟨t', e, ?_, ht⟩
  have : t.insert f (nameKey s) v = (t.insertFast f (nameKey s) v).map (·, true) := rfl
  rw [this] at e
  cases hq : t.insertFast f (nameKey s) v with
  | none => rw [hq] at e; cases e
  | some x =>
    rw [hq] at e
    simp only [Option.map_some, Option.some.injEq, Prod.mk.injEq] at e
    exact hq.trans (by rw [e.1])

/-- The calls for an entry. -/
def entryCalls (e : String × LibEntry) : List LCall :=
  match e.2 with
  | .fn c n => libFn e.1 c n
  | .num x => libNum e.1 x
  | .file s => libFile e.1 s

theorem LHost.run_append (f : Nat) : ∀ (xs ys : List LCall) (h h' : LHost), h.run f xs = some (.ok h') → h.run f (xs ++ ys) = h'.run f ys
  | [], _, _, _, e => by cases e; rfl
  | x :: xs, ys, h, h', e => by
    rw [LHost.run] at e
    rw [List.cons_append, LHost.run]
    split at e
    · cases e
    · exact LHost.run_append f xs ys _ h' e
    · rename_i r hne _
      cases e
      exact (hne h' rfl).elim

theorem LHost.run_cons {f : Nat} {c : LCall} {cs : List LCall} {h h1 : LHost} (e : h.step f c = some (.ok h1)) : h.run f (c :: cs) = h1.run f cs := by
  rw [LHost.run, e]

theorem LHost.push_ok {h : LHost} {v : Val} (hl : h.stack.length < 1024) : h.push v = .ok { h with stack := v :: h.stack } := by
  rw [LHost.push, if_neg (by omega)]

theorem LHost.pushNew_ok {h : LHost} {k : RefKind} {o : LObj} (hl : h.stack.length < 1024) :
    h.pushNew k o = .ok { h with heap := h.heap ++ [o], stack := .ref k h.heap.length :: h.stack } := by
  rw [LHost.pushNew, LHost.push_ok (by exact hl)]

theorem pushRef {h : LHost} {k : RefKind} {a : Nat} (hl : h.stack.length < 1024) :
    (if (Val.ref k a).tag = .end_ then LRes.ok h else h.push (.ref k a)) = .ok { h with stack := .ref k a :: h.stack } := by
  rw [if_neg (by simp [Val.tag]), LHost.push_ok hl]

/-- One entry. -/
theorem entry_run {f : Nat} (hf : 2 ^ 33 ≤ f) {h : LHost} {a : Nat} {s : List Val} {t : Table} {m : Val → Option Val} {n q : Nat} (e : String × LibEntry)
    (hs : h.stack = .ref .table a :: s) (hl : s.length + 4 ≤ 1024) (ha : h.heap[a]? = some (.table t)) (ht : TableRep n t m) (hn : n < 2 ^ 29)
    (hq : ∀ x, e.2 = .file x → h.metas.search f (.str (ascii "io.file")) = some (.ref .table q)) :
    ∃ t' v o, h.run f (entryCalls e) = some (.ok { h with heap := (h.heap ++ o).set a (.table t') }) ∧ TableRep (n + 1) t' (withEntry m (nameKey e.1) v) ∧
      Offers q ((h.heap ++ o).set a (.table t')) v e.2 := by
  obtain ⟨sc, gl, me, heap, stack⟩ := h
  dsimp only at hs ha hq ⊢
  subst hs
  have hlt : a < heap.length := (List.getElem?_eq_some_iff.1 ha).1
  obtain ⟨name, e⟩ := e
  cases e with
  | fn c k =>
    obtain ⟨t', e1, -, e3⟩ := TableRep.put hn hf ht name (v := .ref .cfn heap.length) (by simp [LiveVal])
    refine ⟨t', .ref .cfn heap.length, [.cfn c k], ?_, e3, heap.length, rfl, ?_⟩
    · show LHost.run f _ [.pushlit name, .pushcfunction c k, .tableset] = _
      rw [LHost.run_cons (by rw [LHost.step, LHost.push_ok (by simp; omega)]),
        LHost.run_cons (by rw [LHost.step, LHost.pushNew_ok (by simp; omega)]), LHost.run_cons (h1 := ?_) ?_]
      · rfl
      · simp only [LHost.step, List.getElem?_append_left hlt, ha, e1, Option.map_some]
    · rw [List.getElem?_set_ne (by omega)]; simp
  | num x =>
    obtain ⟨t', e1, -, e3⟩ := TableRep.put hn hf ht name (v := .float x) (by simp [LiveVal])
    refine ⟨t', .float x, [], ?_, e3, rfl⟩
    show LHost.run f _ [.pushlit name, .pushfloat x, .tableset] = _
    rw [LHost.run_cons (by rw [LHost.step, LHost.push_ok (by simp; omega)]),
      LHost.run_cons (by rw [LHost.step, LHost.push_ok (by simp; omega)]), LHost.run_cons (h1 := ?_) ?_]
    · rw [LHost.run, List.append_nil]
    · simp only [LHost.step, ha, e1, Option.map_some]
  | file x =>
    obtain ⟨t', e1, -, e3⟩ := TableRep.put hn hf ht name (v := .ref .userdata heap.length) (by simp [LiveVal])
    have hq := hq x rfl
    refine ⟨t', .ref .userdata heap.length, [.userdata x "io.file" (some q)], ?_, e3, heap.length, rfl, ?_⟩
    · show LHost.run f _ [.pushlit name, .pushuserdata x "io.file", .loadmt "io.file", .setmt, .tableset] = _
      rw [LHost.run_cons (by rw [LHost.step, LHost.push_ok (by simp; omega)]),
        LHost.run_cons (by rw [LHost.step, LHost.pushNew_ok (by simp; omega)]),
        LHost.run_cons (by rw [LHost.step, hq, Option.map_some, pushRef (by simp; omega)]),
        LHost.run_cons (h1 := ⟨sc, gl, me, heap ++ [.userdata x "io.file" (some q)], .ref .userdata heap.length :: .str (ascii name) :: .ref .table a :: s⟩) (by
          simp only [LHost.step, List.getElem?_concat_length]
          congr 3
          rw [List.set_append_right _ _ (by omega)]; simp), LHost.run_cons (h1 := ?_) ?_]
      · rfl
      · simp only [LHost.step, List.getElem?_append_left hlt, ha, e1, Option.map_some]
    · rw [List.getElem?_set_ne (by omega)]; simp

theorem offers_set {q a : Nat} {heap o : List LObj} {t t' : Table} (ha : heap[a]? = some (.table t)) {v : Val} {e : LibEntry} (h : Offers q heap v e) :
    Offers q ((heap ++ o).set a (.table t')) v e := by
  have key : ∀ (p : Nat) (x : LObj), heap[p]? = some x → (∀ t, x ≠ .table t) → ((heap ++ o).set a (.table t'))[p]? = some x := by
    intro p x hp hx
    have hne : a ≠ p := by
      rintro rfl
      rw [ha] at hp; cases hp; exact hx _ rfl
    rw [List.getElem?_set_ne hne, List.getElem?_append_left (List.getElem?_eq_some_iff.1 hp).1, hp]
  cases e with
  | fn c n => obtain ⟨p, e1, e2⟩ := h; exact ⟨p, e1, key p _ e2 (by simp)⟩
  | num x => exact h
  | file x => obtain ⟨p, e1, e2⟩ := h; exact ⟨p, e1, key p _ e2 (by simp)⟩

/-- All entries of a table. -/
theorem entries_run {f : Nat} (hf : 2 ^ 33 ≤ f) {a : Nat} {s : List Val} {q : Nat} (hl : s.length + 4 ≤ 1024) : ∀ (es : List (String × LibEntry)) (h : LHost) (t : Table)
    (m : Val → Option Val) (n : Nat), h.stack = .ref .table a :: s → h.heap[a]? = some (.table t) → TableRep n t m → n + es.length ≤ 2 ^ 29 →
    (∀ e ∈ es, ∀ x, e.2 = .file x → h.metas.search f (.str (ascii "io.file")) = some (.ref .table q)) → (es.map fun e => nameKey e.1).Nodup →
    ∃ t' m' heap', h.run f (es.flatMap entryCalls) = some (.ok { h with heap := heap' }) ∧ heap'[a]? = some (.table t') ∧
      (∀ p o, p ≠ a → h.heap[p]? = some o → heap'[p]? = some o) ∧ TableRep (n + es.length) t' m' ∧ (∀ k, (∀ e ∈ es, k ≠ nameKey e.1) → m' k = m k) ∧
      (∀ v e, Offers q h.heap v e → Offers q heap' v e) ∧ ∀ e ∈ es, ∃ v, m' (nameKey e.1) = some v ∧ Offers q heap' v e.2
  | [], h, t, m, n, _, ha, ht, _, _, _ => ⟨t, m, h.heap, rfl, ha, fun _ _ _ e => e, ht, fun _ _ => rfl, fun _ _ e => e, by simp⟩
  | e :: es, h, t, m, n, hs, ha, ht, hn, hq, hnd => by
    simp only [List.length_cons] at hn
    obtain ⟨t1, v1, o, r1, ht1, ho1⟩ := entry_run hf (q := q) e hs hl ha ht (by omega) (hq e (by simp))
    have hlt : a < h.heap.length := (List.getElem?_eq_some_iff.1 ha).1
    have ha1 : ((h.heap ++ o).set a (.table t1))[a]? = some (.table t1) := by rw [List.getElem?_set_self (by simp; omega)]
    rw [List.map_cons, List.nodup_cons] at hnd
    obtain ⟨t2, m2, heap2, r2, a2, g2, ht2, k2, f2, e2⟩ := entries_run hf hl es { h with heap := (h.heap ++ o).set a (.table t1) } t1 _ (n + 1) hs ha1 ht1 (by omega)
      (fun x hx => hq x (by simp [hx])) hnd.2
    refine ⟨t2, m2, heap2, ?_, a2, ?_, ?_, ?_, ?_, ?_⟩
    · rw [List.flatMap_cons, LHost.run_append f _ _ _ _ r1, r2]
    · intro p x hp hx
      refine g2 p x hp ?_
      dsimp only
      rw [List.getElem?_set_ne (Ne.symm hp), List.getElem?_append_left (List.getElem?_eq_some_iff.1 hx).1, hx]
    · rw [List.length_cons, show n + (es.length + 1) = n + 1 + es.length by omega]; exact ht2
    · intro k hk
      rw [k2 k fun x hx => hk x (by simp [hx]), withEntry, if_neg (hk e (by simp))]
    · intro v x hx
      exact f2 v x (offers_set ha hx)
    · intro x hx
      rcases List.mem_cons.1 hx with rfl | hx
      · refine ⟨v1, ?_, f2 _ _ ho1⟩
        rw [k2 _ fun y hy => ?_, withEntry, if_pos rfl]
        intro hyx
        exact hnd.1 (List.mem_map.2 ⟨y, hy, hyx.symm⟩)
      · exact e2 x hx

/-- A table is filled and popped: the end of all declarations of tables. -/
theorem filled {f : Nat} (hf : 2 ^ 33 ≤ f) {q : Nat} (es : List (String × LibEntry)) (hnd : (es.map fun e => nameKey e.1).Nodup) (hes : es.length ≤ 2 ^ 29) (x : List LObj) (h : LHost)
    (hh : h.heap = x ++ [.table Table.new]) {s : List Val} (hs : h.stack = .ref .table x.length :: s) (hl : s.length + 4 ≤ 1024)
    (hq : ∀ e ∈ es, ∀ x, e.2 = .file x → h.metas.search f (.str (ascii "io.file")) = some (.ref .table q)) :
    ∃ heap', h.run f (es.flatMap entryCalls ++ [.pop]) = some (.ok { h with heap := heap', stack := s }) ∧ HeapGrows x heap' ∧ HasLib q heap' x.length es := by
  obtain ⟨t, m, heap', r, ha, hg, ht, hk, -, he⟩ := entries_run hf (q := q) hl es h Table.new (fun _ => none) 0 hs (by simp [hh]) TableRep.new (by omega) hq hnd
  refine ⟨heap', ?_, ?_, t, m, _, ha, by omega, ht, hk, he⟩
  · rw [LHost.run_append f _ _ _ _ r, LHost.run_cons (h1 := { h with heap := heap', stack := s }) (by simp only [LHost.step, hs])]; rfl
  · intro p o hp
    have hlt := (List.getElem?_eq_some_iff.1 hp).1
    refine hg p o (by omega) ?_
    rw [hh, List.getElem?_append_left hlt, hp]

theorem LibRep.mono {n k : Nat} (hn : n ≤ k) {h : LHost} {sc gl me : Val → Option Val} (r : LibRep n h sc gl me) : LibRep k h sc gl me :=
  ⟨r.1.mono hn, r.2.mono hn, r.3.mono hn⟩

/-- A metatable is made. -/
theorem metaBlock {f : Nat} (hf : 2 ^ 33 ≤ f) {n : Nat} (hn : n < 2 ^ 29) {h : LHost} {sc gl me : Val → Option Val} (r : LibRep n h sc gl me) (name : String)
    (es : List (String × LibEntry)) (hnd : (es.map fun e => nameKey e.1).Nodup) (hes : es.length ≤ 2 ^ 29) (hfile : ∀ e ∈ es, ∀ x, e.2 ≠ .file x) (q : Nat)
    (hl : h.stack.length + 4 ≤ 1024) :
    ∃ h', h.run f ([.pushtable, .registermt name, .loadmt name] ++ (es.flatMap entryCalls ++ [.pop])) = some (.ok h') ∧
      LibRep (n + 1) h' sc gl (withEntry me (nameKey name) (.ref .table h.heap.length)) ∧ HeapGrows h.heap h'.heap ∧ h'.stack = h.stack ∧
      HasLib q h'.heap h.heap.length es := by
  obtain ⟨t, -, e2, e3⟩ := TableRep.put hn hf r.metas name (v := .ref .table h.heap.length) (by simp [LiveVal])
  have hm : t.search f (.str (ascii name)) = some (.ref .table h.heap.length) := by
    rw [e3.str (by omega) hf, withEntry, if_pos rfl]; rfl
  obtain ⟨heap', r1, r2, r3⟩ := filled hf (q := q) es hnd hes h.heap
    { h with metas := t, heap := h.heap ++ [.table Table.new], stack := .ref .table h.heap.length :: h.stack } rfl rfl hl (fun e he x hx => (hfile e he x hx).elim)
  refine ⟨⟨h.scope, h.globals, t, heap', h.stack⟩, ?_, ⟨r.scope.mono (by omega), r.globals.mono (by omega), ?_⟩, r2, rfl, r3⟩
  rotate_left
  · exact e3
  · rw [List.cons_append, List.cons_append, List.cons_append, List.nil_append, LHost.run_cons (by rw [LHost.step, LHost.pushNew_ok (by omega)]),
      LHost.run_cons (by simp only [LHost.step, e2, Option.map_some]; rfl),
      LHost.run_cons (by rw [LHost.step, hm, Option.map_some, pushRef (by exact (show h.stack.length < 1024 by omega))])]
    exact r1

/-- The value given to a global. -/
theorem setBlock {f : Nat} (hf : 2 ^ 33 ≤ f) {n : Nat} (hn : n < 2 ^ 29) {h : LHost} {sc gl me : Val → Option Val} (r : LibRep n h sc gl me) (name : String) :
    ∃ t i, h.scope.insert f (.str (ascii name)) (.int (BitVec.ofNat 64 h.scope.count)) = some (t, true) ∧ isConst i = false ∧
      TableRep (n + 1) t (withEntry sc (nameKey name) (.int i)) ∧ t.search f (.str (ascii name)) = some (.int i) := by
  obtain ⟨t, e1, -, e3⟩ := TableRep.put hn hf r.scope name (v := .int (BitVec.ofNat 64 h.scope.count)) (by simp [LiveVal])
  refine ⟨t, _, e1, isConst_small (r.scope.count_le (by omega)), e3, ?_⟩
  rw [e3.str (by omega) hf, withEntry, if_pos rfl]; rfl

/-- A library that is a table.  `pre`: the calls which declare the name and make the table (in one of two orders). -/
theorem tableBlock {f : Nat} (hf : 2 ^ 33 ≤ f) {n : Nat} (hn : n < 2 ^ 29) {h : LHost} {sc gl me : Val → Option Val} (r : LibRep n h sc gl me) (name : String)
    (pre : List LCall) (hpre : pre = [.pushtable, .declglobal name, .setglobal name, .loadglobal name] ∨ pre = [.declglobal name, .pushtable, .setglobal name, .loadglobal name])
    (es : List (String × LibEntry)) (hnd : (es.map fun e => nameKey e.1).Nodup) (hes : es.length ≤ 2 ^ 29) (q : Nat)
    (hq : ∀ e ∈ es, ∀ x, e.2 = .file x → me (nameKey "io.file") = some (.ref .table q)) (hl : h.stack.length + 4 ≤ 1024) :
    ∃ h' i, h.run f (pre ++ (es.flatMap entryCalls ++ [.pop])) = some (.ok h') ∧ isConst i = false ∧
      LibRep (n + 1) h' (withEntry sc (nameKey name) (.int i)) (withEntry gl (nameKey name) (.ref .table h.heap.length)) me ∧ HeapGrows h.heap h'.heap ∧ h'.stack = h.stack ∧
      HasLib q h'.heap h.heap.length es := by
  obtain ⟨sct, i, s1, s2, s3, s4⟩ := setBlock hf hn r name
  obtain ⟨t, -, e2, e3⟩ := TableRep.put hn hf r.globals name (v := .ref .table h.heap.length) (by simp [LiveVal])
  have hm : t.search f (.str (ascii name)) = some (.ref .table h.heap.length) := by
    rw [e3.str (by omega) hf, withEntry, if_pos rfl]; rfl
  obtain ⟨heap', r1, r2, r3⟩ := filled hf (q := q) es hnd hes h.heap
    { h with scope := sct, globals := t, heap := h.heap ++ [.table Table.new], stack := .ref .table h.heap.length :: h.stack } rfl rfl hl (fun e he x hx => by
      dsimp only; rw [r.metas.str (by omega) hf, hq e he x hx]; rfl)
  refine ⟨⟨sct, t, h.metas, heap', h.stack⟩, i, ?_, s2, ⟨?_, ?_, r.metas.mono (by omega)⟩, r2, rfl, r3⟩
  rotate_left
  · exact s3
  · exact e3
  · have last : ∀ cs, (⟨sct, h.globals, h.metas, h.heap ++ [.table Table.new], .ref .table h.heap.length :: h.stack⟩ : LHost).run f (.setglobal name :: .loadglobal name :: cs) =
        (⟨sct, t, h.metas, h.heap ++ [.table Table.new], .ref .table h.heap.length :: h.stack⟩ : LHost).run f cs := by
      intro cs
      rw [LHost.run_cons (by simp only [LHost.step, s4, s2, e2, Option.map_some]; rfl),
        LHost.run_cons (by rw [LHost.step, hm, Option.map_some, pushRef (by exact (show h.stack.length < 1024 by omega))])]
    rcases hpre with rfl | rfl
    · rw [List.cons_append, List.cons_append, List.cons_append, List.cons_append, List.nil_append, LHost.run_cons (by rw [LHost.step, LHost.pushNew_ok (by omega)]),
        LHost.run_cons (by simp only [LHost.step, s1, Option.map_some]; rfl)]
      exact (last _).trans r1
    · rw [List.cons_append, List.cons_append, List.cons_append, List.cons_append, List.nil_append, LHost.run_cons (by simp only [LHost.step, s1, Option.map_some]; rfl),
        LHost.run_cons (by rw [LHost.step, LHost.pushNew_ok (by exact (show h.stack.length < 1024 by omega))])]
      exact (last _).trans r1

/-- A library that is a function. -/
theorem fnBlock {f : Nat} (hf : 2 ^ 33 ≤ f) {n : Nat} (hn : n < 2 ^ 29) {h : LHost} {sc gl me : Val → Option Val} (r : LibRep n h sc gl me) (name c : String) (k : Int)
    (hl : h.stack.length + 4 ≤ 1024) :
    ∃ h' i, h.run f [.declglobal name, .pushcfunction c k, .setglobal name] = some (.ok h') ∧ isConst i = false ∧
      LibRep (n + 1) h' (withEntry sc (nameKey name) (.int i)) (withEntry gl (nameKey name) (.ref .cfn h.heap.length)) me ∧ HeapGrows h.heap h'.heap ∧ h'.stack = h.stack ∧
      h'.heap[h.heap.length]? = some (.cfn c k) := by
  obtain ⟨sct, i, s1, s2, s3, s4⟩ := setBlock hf hn r name
  obtain ⟨t, -, e2, e3⟩ := TableRep.put hn hf r.globals name (v := .ref .cfn h.heap.length) (by simp [LiveVal])
  refine ⟨⟨sct, t, h.metas, h.heap ++ [.cfn c k], h.stack⟩, i, ?_, s2, ⟨s3, e3, r.metas.mono (by omega)⟩, ?_, rfl, by simp⟩
  · rw [LHost.run_cons (by simp only [LHost.step, s1, Option.map_some]; rfl), LHost.run_cons (by rw [LHost.step, LHost.pushNew_ok (by exact (show h.stack.length < 1024 by omega))]),
      LHost.run_cons (by simp only [LHost.step, s4, s2, e2, Option.map_some]; rfl)]
    rfl
  · intro p o hp
    exact (List.getElem?_append_left (List.getElem?_eq_some_iff.1 hp).1).trans hp

theorem HasLib.congr {q q' a : Nat} {heap : List LObj} {es es' : List (String × LibEntry)} (h : HasLib q heap a es) (hes : ∀ e, e ∈ es' ↔ e ∈ es)
    (hq : q = q' ∨ ∀ e ∈ es, ∀ x, e.2 ≠ .file x) : HasLib q' heap a es' := by
  obtain ⟨t, m, n, h1, h2, h3, h4, h5⟩ := h
  refine ⟨t, m, n, h1, h2, h3, fun k hk => h4 k fun e he => hk e ((hes e).2 he), fun e he => ?_⟩
  obtain ⟨v, e1, e2⟩ := h5 e ((hes e).1 he)
  refine ⟨v, e1, ?_⟩
  rcases hq with rfl | hq
  · exact e2
  · have := hq e ((hes e).1 he)
    revert e2 this
    cases e.2 with
    | fn c k => exact fun e2 _ => e2
    | num x => exact fun e2 _ => e2
    | file x => exact fun _ g => (g x rfl).elim

theorem withEntry_same {m : Val → Option Val} {k v : Val} : withEntry m k v k = some v := if_pos rfl
theorem withEntry_ne {m : Val → Option Val} {k v x : Val} (h : x ≠ k) : withEntry m k v x = m x := if_neg h

/-- The entries in the order of the calls (a permutation of `setMethods`, and so on). -/
def setOrder : List (String × LibEntry) := [
  ("tostr", .fn "YASL_collections_set_tostr" 1), ("tolist", .fn "YASL_collections_set_tolist" 1), ("__band", .fn "YASL_collections_set___band" 2),
  ("__bor", .fn "YASL_collections_set___bor" 2), ("__bxor", .fn "YASL_collections_set___bxor" 2), ("__bandnot", .fn "YASL_collections_set___bandnot" 2),
  ("__len", .fn "YASL_collections_set___len" 1), ("__eq", .fn "YASL_collections_set___eq" 2), ("__gt", .fn "YASL_collections_set___gt" 2),
  ("__ge", .fn "YASL_collections_set___ge" 2), ("__lt", .fn "YASL_collections_set___lt" 2), ("__le", .fn "YASL_collections_set___le" 2),
  ("add", .fn "YASL_collections_set_add" 2), ("remove", .fn "YASL_collections_set_remove" 2), ("copy", .fn "YASL_collections_set_copy" 1),
  ("clear", .fn "YASL_collections_set_clear" 1), ("__get", .fn "YASL_collections_set___get" 2)]
@[inherit_doc setOrder] def collectionsOrder : List (String × LibEntry) := [
  ("set", .fn "YASL_collections_set_new" (-1)), ("list", .fn "YASL_collections_list_new" (-1)), ("table", .fn "YASL_collections_table_new" (-1))]
@[inherit_doc setOrder] def fileOrder : List (String × LibEntry) := [
  ("read", .fn "YASL_io_read" 2), ("write", .fn "YASL_io_write" 2), ("seek", .fn "YASL_io_seek" 3), ("flush", .fn "YASL_io_flush" 1), ("close", .fn "YASL_io_close" 1)]
@[inherit_doc setOrder] def ioOrder : List (String × LibEntry) := [("open", .fn "YASL_io_open" 2), ("stdin", .file "stdin"), ("stdout", .file "stdout"), ("stderr", .file "stderr")]
@[inherit_doc setOrder] def mathOrder (nan : BitVec 64) : List (String × LibEntry) := [
  ("abs", .fn "YASL_math_abs" 1), ("exp", .fn "YASL_math_exp" 1), ("log", .fn "YASL_math_log" 1), ("pi", .num 0x400921FB54442D18), ("nan", .num nan),
  ("inf", .num 0x7FF0000000000000), ("sqrt", .fn "YASL_math_sqrt" 1), ("cos", .fn "YASL_math_cos" 1), ("sin", .fn "YASL_math_sin" 1), ("tan", .fn "YASL_math_tan" 1),
  ("acos", .fn "YASL_math_acos" 1), ("asin", .fn "YASL_math_asin" 1), ("atan", .fn "YASL_math_atan" 1), ("ceil", .fn "YASL_math_ceil" 1), ("floor", .fn "YASL_math_floor" 1),
  ("max", .fn "YASL_math_max" (-1)), ("min", .fn "YASL_math_min" (-1)), ("deg", .fn "YASL_math_deg" 1), ("rad", .fn "YASL_math_rad" 1),
  ("isprime", .fn "YASL_math_isprime" 1), ("gcd", .fn "YASL_math_gcd" 2), ("lcm", .fn "YASL_math_lcm" 2), ("rand", .fn "YASL_math_rand" 1)]

theorem decllibs_blocks (nan : BitVec 64) : decllibs nan =
    ([.pushtable, .registermt "collections.set", .loadmt "collections.set"] ++ (setOrder.flatMap entryCalls ++ [.pop])) ++
    (([.pushtable, .declglobal "collections", .setglobal "collections", .loadglobal "collections"] ++ (collectionsOrder.flatMap entryCalls ++ [.pop])) ++
    (([.pushtable, .registermt "io.file", .loadmt "io.file"] ++ (fileOrder.flatMap entryCalls ++ [.pop])) ++
    (([.pushtable, .declglobal "io", .setglobal "io", .loadglobal "io"] ++ (ioOrder.flatMap entryCalls ++ [.pop])) ++
    (([.declglobal "math", .pushtable, .setglobal "math", .loadglobal "math"] ++ ((mathOrder nan).flatMap entryCalls ++ [.pop])) ++
    ([.declglobal "require", .pushcfunction "YASL_require" 1, .setglobal "require"] ++
    ([.declglobal "__require_c__", .pushcfunction "YASL_require_c" 1, .setglobal "__require_c__"] ++
    ([.declglobal "mt", .pushtable, .setglobal "mt", .loadglobal "mt"] ++ (mtLib.flatMap entryCalls ++ [.pop])))))))) := by
  simp only [decllibs, decllibCollections, decllibIo, decllibMath, decllibRequire, decllibRequireC, decllibMt, initglobal, setOrder, collectionsOrder, fileOrder, ioOrder, mathOrder,
    mtLib, List.flatMap_cons, List.flatMap_nil, entryCalls, List.append_assoc, List.nil_append, List.cons_append]

theorem setOrder_mem : ∀ e, e ∈ setMethods ↔ e ∈ setOrder := fun e =>
  ⟨fun h => (by decide +kernel : ∀ e ∈ setMethods, e ∈ setOrder) e h, fun h => (by decide +kernel : ∀ e ∈ setOrder, e ∈ setMethods) e h⟩
theorem collectionsOrder_mem : ∀ e, e ∈ collectionsLib ↔ e ∈ collectionsOrder := fun e =>
  ⟨fun h => (by decide +kernel : ∀ e ∈ collectionsLib, e ∈ collectionsOrder) e h, fun h => (by decide +kernel : ∀ e ∈ collectionsOrder, e ∈ collectionsLib) e h⟩
theorem fileOrder_mem : ∀ e, e ∈ fileMethods ↔ e ∈ fileOrder := fun e =>
  ⟨fun h => (by decide +kernel : ∀ e ∈ fileMethods, e ∈ fileOrder) e h, fun h => (by decide +kernel : ∀ e ∈ fileOrder, e ∈ fileMethods) e h⟩
theorem ioOrder_mem : ∀ e, e ∈ ioLib ↔ e ∈ ioOrder := fun e =>
  ⟨fun h => (by decide +kernel : ∀ e ∈ ioLib, e ∈ ioOrder) e h, fun h => (by decide +kernel : ∀ e ∈ ioOrder, e ∈ ioLib) e h⟩
theorem mathOrder_mem (nan : BitVec 64) : ∀ e, e ∈ mathLib nan ↔ e ∈ mathOrder nan := by
  have a1 : ∀ e ∈ mathLib nan, e ∈ mathOrder nan := by
    unfold mathLib
    simp only [List.forall_mem_cons]
    refine ⟨?_, ?_, ?_, ?_, ?_, ?_, ?_, ?_, ?_, ?_, ?_, ?_, ?_, ?_, ?_, ?_, ?_, ?_, ?_, ?_, ?_, ?_, ?_, by simp⟩ <;>
      simp only [mathOrder, List.mem_cons, true_or, or_true]
  have a2 : ∀ e ∈ mathOrder nan, e ∈ mathLib nan := by
    unfold mathOrder
    simp only [List.forall_mem_cons]
    refine ⟨?_, ?_, ?_, ?_, ?_, ?_, ?_, ?_, ?_, ?_, ?_, ?_, ?_, ?_, ?_, ?_, ?_, ?_, ?_, ?_, ?_, ?_, ?_, by simp⟩ <;>
      simp only [mathLib, List.mem_cons, true_or, or_true]
  exact fun e => ⟨a1 e, a2 e⟩

/-- **C114.**  After `YASLX_decllibs` the global names of the libraries are declared and can be assigned, each names a new table that has exactly the listed entries (C functions with
their numbers of arguments, numbers, the three open files with the methods of files) or the listed function; the metatables of sets and files are registered with exactly their
methods; all other globals, all other names and metatables, all objects and the stack are as before. -/
theorem C114_libraries (nan : BitVec 64) {f : Nat} (hf : 2 ^ 33 ≤ f) {n : Nat} (hn : n + 8 ≤ 2 ^ 29) {h : LHost} {sc gl me : Val → Option Val} (r : LibRep n h sc gl me)
    (hl : h.stack.length + 4 ≤ 1024) :
    ∃ h' sc' gl' me' q, h.run f (decllibs nan) = some (.ok h') ∧ LibRep (n + 8) h' sc' gl' me' ∧ h'.stack = h.stack ∧ HeapGrows h.heap h'.heap ∧
      me' (nameKey "io.file") = some (.ref .table q) ∧
      (∀ x ∈ libTables nan, ∃ a, h.heap.length ≤ a ∧ gl' (nameKey x.1) = some (.ref .table a) ∧ HasLib q h'.heap a x.2) ∧
      (∀ x ∈ libFns, ∃ v, gl' (nameKey x.1) = some v ∧ Offers q h'.heap v x.2) ∧
      (∀ x ∈ libMetas, ∃ a, h.heap.length ≤ a ∧ me' (nameKey x.1) = some (.ref .table a) ∧ HasLib q h'.heap a x.2) ∧
      (∀ s ∈ libNames, ∃ i, sc' (nameKey s) = some (.int i) ∧ isConst i = false) ∧
      (∀ k, (∀ s ∈ libNames, k ≠ nameKey s) → sc' k = sc k ∧ gl' k = gl k) ∧
      (∀ k, (∀ x ∈ libMetas, k ≠ nameKey x.1) → me' k = me k) := by
  obtain ⟨h1, r1, l1, g1, s1, e1⟩ := metaBlock hf (by omega) r "collections.set" setOrder (by decide +kernel) (by decide) (by simp [setOrder]) 0 hl
  obtain ⟨h2, i2, r2, c2, l2, g2, s2, e2⟩ := tableBlock hf (by omega) l1 "collections" _ (.inl rfl) collectionsOrder (by decide +kernel) (by decide) 0 (by simp [collectionsOrder]) (by rw [s1]; exact hl)
  obtain ⟨h3, r3, l3, g3, s3, e3⟩ := metaBlock hf (by omega) l2 "io.file" fileOrder (by decide +kernel) (by decide) (by simp [fileOrder]) h2.heap.length (by rw [s2, s1]; exact hl)
  obtain ⟨h4, i4, r4, c4, l4, g4, s4, e4⟩ := tableBlock hf (by omega) l3 "io" _ (.inl rfl) ioOrder (by decide +kernel) (by decide) h2.heap.length (fun _ _ _ _ => withEntry_same)
    (by rw [s3, s2, s1]; exact hl)
  obtain ⟨h5, i5, r5, c5, l5, g5, s5, e5⟩ := tableBlock hf (by omega) l4 "math" _ (.inr rfl) (mathOrder nan) (by rw [show ((mathOrder nan).map fun e => nameKey e.1) = ((mathOrder 0).map fun e => nameKey e.1) from rfl]; decide +kernel) (by simp [mathOrder]) h2.heap.length
    (by simp [mathOrder]) (by rw [s4, s3, s2, s1]; exact hl)
  obtain ⟨h6, i6, r6, c6, l6, g6, s6, e6⟩ := fnBlock hf (by omega) l5 "require" "YASL_require" 1 (by rw [s5, s4, s3, s2, s1]; exact hl)
  obtain ⟨h7, i7, r7, c7, l7, g7, s7, e7⟩ := fnBlock hf (by omega) l6 "__require_c__" "YASL_require_c" 1 (by rw [s6, s5, s4, s3, s2, s1]; exact hl)
  obtain ⟨h8, i8, r8, c8, l8, g8, s8, e8⟩ := tableBlock hf (by omega) l7 "mt" _ (.inr rfl) mtLib (by decide +kernel) (by decide) h2.heap.length
    (by simp [mtLib]) (by rw [s7, s6, s5, s4, s3, s2, s1]; exact hl)
  have len : ∀ {x y : List LObj}, HeapGrows x y → x.length ≤ y.length := by
    intro x y g
    rcases Nat.lt_or_ge y.length x.length with hlt | hge
    · have := g y.length _ (List.getElem?_eq_getElem hlt)
      exact absurd (List.getElem?_eq_some_iff.1 this).1 (by omega)
    · exact hge
  have g78 := g7.trans g8
  have g68 := g6.trans g78
  have g58 := g5.trans g68
  have g48 := g4.trans g58
  have g38 := g3.trans g48
  have g28 := g2.trans g38
  have b1 := len g1
  have b2 := len g2
  have b3 := len g3
  have b4 := len g4
  have b5 := len g5
  have b6 := len g6
  have b7 := len g7
  refine ⟨h8, _, _, _, h2.heap.length, ?_, l8, by rw [s8, s7, s6, s5, s4, s3, s2, s1], g1.trans g28, withEntry_same, ?_, ?_, ?_, ?_, ?_, ?_⟩
  · rw [decllibs_blocks, LHost.run_append f _ _ _ _ r1, LHost.run_append f _ _ _ _ r2, LHost.run_append f _ _ _ _ r3, LHost.run_append f _ _ _ _ r4,
      LHost.run_append f _ _ _ _ r5, LHost.run_append f _ _ _ _ r6, LHost.run_append f _ _ _ _ r7, r8]
  · intro x hx
    simp only [libTables, List.mem_cons, List.not_mem_nil, or_false] at hx
    rcases hx with rfl | rfl | rfl | rfl
    · refine ⟨h1.heap.length, by omega, ?_, (e2.mono g38).congr collectionsOrder_mem (.inr (by simp [collectionsOrder]))⟩
      rw [withEntry_ne (by decide), withEntry_ne (by decide), withEntry_ne (by decide), withEntry_ne (by decide), withEntry_ne (by decide), withEntry_same]
    · refine ⟨h3.heap.length, by omega, ?_, (e4.mono g58).congr ioOrder_mem (.inl rfl)⟩
      rw [withEntry_ne (by decide), withEntry_ne (by decide), withEntry_ne (by decide), withEntry_ne (by decide), withEntry_same]
    · refine ⟨h4.heap.length, by omega, ?_, (e5.mono g68).congr (mathOrder_mem nan) (.inl rfl)⟩
      dsimp only; rw [withEntry_ne (by decide), withEntry_ne (by decide), withEntry_ne (by decide), withEntry_same]
    · exact ⟨h7.heap.length, by omega, withEntry_same, e8⟩
  · intro x hx
    simp only [libFns, List.mem_cons, List.not_mem_nil, or_false] at hx
    rcases hx with rfl | rfl
    · exact ⟨_, by rw [withEntry_ne (by decide), withEntry_same], _, rfl, g8 _ _ e7⟩
    · exact ⟨_, by rw [withEntry_ne (by decide), withEntry_ne (by decide), withEntry_same], _, rfl, g78 _ _ e6⟩
  · intro x hx
    simp only [libMetas, List.mem_cons, List.not_mem_nil, or_false] at hx
    rcases hx with rfl | rfl
    · refine ⟨h.heap.length, by omega, ?_, (e1.mono g28).congr setOrder_mem (.inr (by simp [setOrder]))⟩
      rw [withEntry_ne (by decide), withEntry_same]
    · exact ⟨h2.heap.length, by omega, withEntry_same, (e3.mono g48).congr fileOrder_mem (.inl rfl)⟩
  · intro s hs
    simp only [libNames, List.mem_cons, List.not_mem_nil, or_false] at hs
    rcases hs with rfl | rfl | rfl | rfl | rfl | rfl
    · refine ⟨i2, ?_, c2⟩
      rw [withEntry_ne (by decide), withEntry_ne (by decide), withEntry_ne (by decide), withEntry_ne (by decide), withEntry_ne (by decide), withEntry_same]
    · refine ⟨i4, ?_, c4⟩
      rw [withEntry_ne (by decide), withEntry_ne (by decide), withEntry_ne (by decide), withEntry_ne (by decide), withEntry_same]
    · refine ⟨i5, ?_, c5⟩
      rw [withEntry_ne (by decide), withEntry_ne (by decide), withEntry_ne (by decide), withEntry_same]
    · refine ⟨i6, ?_, c6⟩
      rw [withEntry_ne (by decide), withEntry_ne (by decide), withEntry_same]
    · refine ⟨i7, ?_, c7⟩
      rw [withEntry_ne (by decide), withEntry_same]
    · exact ⟨i8, withEntry_same, c8⟩
  · intro k hk
    simp only [libNames, List.mem_cons, List.not_mem_nil, or_false, forall_eq_or_imp, forall_eq] at hk
    obtain ⟨k1, k2, k3, k4, k5, k6⟩ := hk
    simp only [withEntry_ne k1, withEntry_ne k2, withEntry_ne k3, withEntry_ne k4, withEntry_ne k5, withEntry_ne k6, and_self]
  · intro k hk
    simp only [libMetas, List.mem_cons, List.not_mem_nil, or_false, forall_eq_or_imp, forall_eq] at hk
    simp only [withEntry_ne hk.1, withEntry_ne hk.2]

/-- **C114, the second time** (as `require` does on the globals shared with the caller): a name of a library that was a table is now another table, which has exactly the listed
entries.  What a program had added to the library, or changed in it, can no longer be reached by this name. -/
theorem C114_again (nan : BitVec 64) {f : Nat} (hf : 2 ^ 33 ≤ f) {n : Nat} (hn : n + 8 ≤ 2 ^ 29) {h : LHost} {sc gl me : Val → Option Val} (r : LibRep n h sc gl me)
    (hl : h.stack.length + 4 ≤ 1024) (x : String × List (String × LibEntry)) (hx : x ∈ libTables nan) {b : Nat} {t : Table} (hb : gl (nameKey x.1) = some (.ref .table b))
    (ht : h.heap[b]? = some (.table t)) :
    ∃ h' sc' gl' me' q a, h.run f (decllibs nan) = some (.ok h') ∧ LibRep (n + 8) h' sc' gl' me' ∧ gl (nameKey x.1) = some (.ref .table b) ∧
      gl' (nameKey x.1) = some (.ref .table a) ∧ a ≠ b ∧ HasLib q h'.heap a x.2 ∧ h'.heap[b]? = some (.table t) := by
  obtain ⟨h', sc', gl', me', q, r1, r2, r3, r4, r5, r6, -⟩ := C114_libraries nan hf hn r hl
  obtain ⟨a, h1, h2, h3⟩ := r6 x hx
  have := (List.getElem?_eq_some_iff.1 ht).1
  exact ⟨h', sc', gl', me', q, a, r1, r2, hb, h2, by omega, h3, r4 _ _ ht⟩

/-- A state just made. -/
def LHost.new : LHost := ⟨Table.new, Table.new, Table.new, [], []⟩

theorem LHost.new_rep : LibRep 0 LHost.new (fun _ => none) (fun _ => none) (fun _ => none) := ⟨TableRep.new, TableRep.new, TableRep.new⟩

/-- A concrete case of `C114_libraries` and of `C114_again`: a new state. -/
example (nan : BitVec 64) : ∃ h' sc' gl' me' a t, LHost.new.run (2 ^ 33) (decllibs nan) = some (.ok h') ∧ LibRep 8 h' sc' gl' me' ∧ h'.stack = [] ∧
    gl' (nameKey "math") = some (.ref .table a) ∧ h'.heap[a]? = some (.table t) ∧ gl' (nameKey "x") = none := by
  obtain ⟨h', sc', gl', me', q, r1, r2, r3, r4, r5, r6, -, -, -, r7, -⟩ := C114_libraries nan (f := 2 ^ 33) le_rfl (by decide) LHost.new_rep (by decide)
  obtain ⟨a, -, h2, t, m, k, h3, -⟩ := r6 ("math", mathLib nan) (by simp [libTables])
  exact ⟨h', sc', gl', me', a, t, r1, r2, r3, h2, h3, (r7 (nameKey "x") (by decide +kernel)).2⟩

end Yasl
