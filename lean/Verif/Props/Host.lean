import Verif.Model.Host
import Verif.Props.Table
import Verif.Props.List
set_option autoImplicit false
/-!
# C94, C95 — host programs and containers

`AHost` (`Verif.Spec.Host`) says what calls of the API are to do, with tables as partial functions and lists as sequences.
-/
namespace Yasl

/-- A table after at most `n` assignments, and the map it stands for. -/
def TableRep (n : Nat) (t : Table) (m : Val → Option Val) : Prop :=
  ∃ ops : List TOp, (∀ op ∈ ops, op.IsSet) ∧ (∀ op ∈ ops, op.OK) ∧ ops.length ≤ n ∧ (∀ f, 2 ^ 33 ≤ f → Table.new.run f ops = some t) ∧ m = specOf ops

/-- An object, and the object of the specification it stands for. -/
def ObjRep (n : Nat) : CObj → AObj → Prop
  | .table t, .table m => TableRep n t m
  | .list l, .list xs => l.Holds xs
  | _, _ => False

/-- A state, and the state of the specification it stands for. -/
structure HostRep (n : Nat) (h : Host) (a : AHost) : Prop where
  stack : h.stack = a.stack
  replies : h.replies = a.replies
  heap : List.Forall₂ (ObjRep n) h.heap a.heap

theorem TableRep.mono {n m : Nat} (hn : n ≤ m) {t : Table} {f : Val → Option Val} (h : TableRep n t f) : TableRep m t f := by
  obtain ⟨ops, h1, h2, h3, h4⟩ := h; exact ⟨ops, h1, h2, h3.trans hn, h4⟩

theorem ObjRep.mono {n m : Nat} (hn : n ≤ m) : ∀ {o : CObj} {a : AObj}, ObjRep n o a → ObjRep m o a
  | .table _, .table _, h => TableRep.mono hn h
  | .list _, .list _, h => h
  | .table _, .list _, h => h.elim
  | .list _, .table _, h => h.elim

theorem HostRep.mono {n m : Nat} (hn : n ≤ m) {h : Host} {a : AHost} (r : HostRep n h a) : HostRep m h a :=
  ⟨r.stack, r.replies, r.heap.imp fun _ _ => ObjRep.mono hn⟩

theorem TableRep.new : TableRep 0 Table.new fun _ => none := ⟨[], by simp, by simp, by simp, fun f _ => rfl, rfl⟩

theorem specOf_append1 (ops : List TOp) (op : TOp) : specOf (ops ++ [op]) = op.apply (specOf ops) := by simp [specOf, specFrom]

theorem TableRep.insert {n f : Nat} (hn : n < 2 ^ 29) (hf : 2 ^ 33 ≤ f) {t : Table} {m : Val → Option Val} (h : TableRep n t m) {k v : Val} (hk : k.hashable = true)
    (hg : GoodKey k) (hv : LiveVal v) : ∃ t', t.insert f k v = some (t', true) ∧ TableRep (n + 1) t' fun x => if x = k then some v else m x := by
  obtain ⟨ops, h1, h2, h3, h4, h5⟩ := h
  have s1 : ∀ op ∈ ops ++ [TOp.set k v], op.IsSet := by
    intro op ho; rcases List.mem_append.1 ho with ho | ho
    · exact h1 op ho
    · rw [List.mem_singleton.1 ho]; trivial
  have s2 : ∀ op ∈ ops ++ [TOp.set k v], op.OK := by
    intro op ho; rcases List.mem_append.1 ho with ho | ho
    · exact h2 op ho
    · rw [List.mem_singleton.1 ho]; exact ⟨.inl hg, hv⟩
  have s3 : (ops ++ [TOp.set k v]).length ≤ n + 1 := by simp; omega
  obtain ⟨t', e, -⟩ := C01_assignments_partial (ops ++ [TOp.set k v]) s1 s2 (by omega) f hf
  have e' := e
  rw [run_append, h4 f hf] at e'
  have e2 : (t.insert f k v).map Prod.fst = some t' := by simpa [Table.run, Table.step] using e'
  have e3 : t.insert f k v = some (t', true) := by
    rw [Table.insert, if_pos hk] at e2 ⊢
    cases hq : t.insertFast f k v with
    | none => rw [hq] at e2; cases e2
    | some q => rw [hq] at e2; cases e2; rfl
  refine ⟨t', e3, ops ++ [TOp.set k v], s1, s2, s3, fun f' hf' => ?_, ?_⟩
  · obtain ⟨t'', e'', -⟩ := C01_assignments_partial (ops ++ [TOp.set k v]) s1 s2 (by omega) f' hf'
    rw [e'', run_det e'' e]
  · rw [specOf_append1, ← h5]; funext x; simp [TOp.apply, hk]

theorem HostRep.obj {n : Nat} {h : Host} {a : AHost} (r : HostRep n h a) {i : Nat} {o : AObj} (ho : a.heap[i]? = some o) :
    ∃ o', h.heap[i]? = some o' ∧ ObjRep n o' o := by
  have hl := r.heap.length_eq
  obtain ⟨hi, rfl⟩ := List.getElem?_eq_some_iff.1 ho
  exact ⟨h.heap[i], List.getElem?_eq_getElem (by omega), r.heap.get (by omega) (by omega)⟩

theorem forall₂_set {α β : Type} {R : α → β → Prop} : ∀ {l : List α} {l' : List β} (i : Nat) {x : α} {y : β}, List.Forall₂ R l l' → R x y →
    List.Forall₂ R (l.set i x) (l'.set i y)
  | _, _, _, _, _, .nil, _ => by simp
  | _, _, 0, _, _, .cons h t, hr => .cons hr t
  | _, _, i + 1, _, _, .cons h t, hr => .cons h (forall₂_set i t hr)

theorem forall₂_snoc {α β : Type} {R : α → β → Prop} {l : List α} {l' : List β} {x : α} {y : β} (h : List.Forall₂ R l l') (hr : R x y) :
    List.Forall₂ R (l ++ [x]) (l' ++ [y]) := List.rel_append h (.cons hr .nil)

/-- Results of calls that agree. -/
def ResRep (n : Nat) : HRes Host → HRes AHost → Prop
  | .ok h, .ok a => HostRep n h a
  | .overflow, .overflow => True
  | .valueError, .valueError => True
  | _, _ => False

theorem HostRep.push {n : Nat} {h : Host} {a : AHost} (r : HostRep n h a) (v : Val) : ResRep n (h.push v) (a.push v) := by
  unfold Host.push AHost.push
  rw [r.stack]
  by_cases hl : a.stack.length < 1024
  · rw [if_neg (by omega), if_pos hl]; exact ⟨by simp, r.replies, r.heap⟩
  · rw [if_pos (by omega), if_neg hl]; trivial

theorem ResRep.mono {n m : Nat} (hn : n ≤ m) : ∀ {x : HRes Host} {y : HRes AHost}, ResRep n x y → ResRep m x y
  | .ok _, .ok _, h => HostRep.mono hn h
  | .overflow, .overflow, _ => trivial
  | .valueError, .valueError, _ => trivial
  | .ok _, .overflow, h | .ok _, .valueError, h | .ok _, .ub, h | .overflow, .ok _, h | .overflow, .valueError, h | .overflow, .ub, h
  | .valueError, .ok _, h | .valueError, .overflow, h | .valueError, .ub, h | .ub, _, h => by cases h

theorem host_step {n f : Nat} (hn : n < 2 ^ 29) (hf : 2 ^ 33 ≤ f) {h : Host} {a : AHost} (r : HostRep n h a) {op : HOp} {y : HRes AHost} (hs : a.step op = some y) :
    ∃ x, h.step f op = some x ∧ ResRep (n + 1) x y := by
  have hlen := r.heap.length_eq
  obtain ⟨hh, hst, hrp⟩ := h
  obtain ⟨ah, ast, arp⟩ := a
  obtain ⟨e1, e2, r3⟩ := r
  dsimp only at e1 e2 r3 hlen
  subst e1 e2
  have r : HostRep n ⟨hh, hst, hrp⟩ ⟨ah, hst, hrp⟩ := ⟨rfl, rfl, r3⟩
  cases op with
  | push v =>
    simp only [AHost.step] at hs
    split at hs <;> cases hs
    exact ⟨_, rfl, (r.push v).mono (by omega)⟩
  | newTable =>
    simp only [AHost.step, Option.some.injEq] at hs; subst hs
    refine ⟨_, rfl, ?_⟩
    rw [hlen]
    exact HostRep.push ⟨rfl, rfl, forall₂_snoc (R := ObjRep (n + 1)) (x := .table Table.new) (y := .table fun _ => none) (r3.imp fun _ _ => ObjRep.mono (by omega)) (show TableRep (n + 1) _ _ from TableRep.new.mono (by omega))⟩ _
  | newList =>
    simp only [AHost.step, Option.some.injEq] at hs; subst hs
    refine ⟨_, rfl, ?_⟩
    rw [hlen]
    exact HostRep.push ⟨rfl, rfl, forall₂_snoc (R := ObjRep (n + 1)) (x := .list YList.new) (y := .list []) (r3.imp fun _ _ => ObjRep.mono (by omega)) (show YList.Holds _ [] from Holds.newSized _)⟩ _
  | dup =>
    cases hst with
    | nil => simp [AHost.step] at hs
    | cons v s =>
      simp only [AHost.step, Option.some.injEq] at hs; subst hs
      exact ⟨_, rfl, (r.push v).mono (by omega)⟩
  | pop =>
    cases hst with
    | nil => simp [AHost.step] at hs
    | cons v s =>
      simp only [AHost.step, Option.some.injEq] at hs; subst hs
      exact ⟨_, rfl, HostRep.mono (n := n) (by omega) ⟨rfl, rfl, r3⟩⟩
  | tableSet =>
    simp only [AHost.step] at hs
    split at hs
    · rename_i v k a s
      split at hs
      · rename_i m hm
        obtain ⟨o, ho, hr⟩ := r.obj hm
        cases o with
        | list l => exact hr.elim
        | table t =>
          dsimp only at ho
          simp only [Host.step, ho]
          split at hs
          · rename_i hk
            cases hs
            refine ⟨_, by rw [Table.insert, if_neg (by simp [hk])]; rfl, ?_⟩
            refine HostRep.mono (n := n) (by omega) ⟨rfl, rfl, ?_⟩
            have := forall₂_set a r3 (x := .table t) (y := .table m) hr
            rw [show ah.set a (.table m) = ah from ?_] at this
            · exact this
            · obtain ⟨hi, e⟩ := List.getElem?_eq_some_iff.1 hm
              rw [← e]; exact List.set_getElem_self hi
          · rename_i hk
            split at hs
            · rename_i hg
              cases hs
              obtain ⟨t', e, ht⟩ := TableRep.insert hn hf hr (by simpa using hk) hg.1 hg.2
              refine ⟨.ok ⟨hh.set a (.table t'), .ref .table a :: s, .success :: hrp⟩, by rw [e]; rfl, (⟨rfl, rfl, ?_⟩ : HostRep (n + 1) _ _)⟩
              exact forall₂_set a (r3.imp fun _ _ => ObjRep.mono (by omega)) ht
            · cases hs
      · cases hs
    · rename_i v k t s hne
      cases hs
      refine ⟨.ok ⟨hh, t :: s, .typeError :: hrp⟩, ?_, HostRep.mono (n := n) (by omega) ⟨rfl, rfl, r3⟩⟩
      simp only [Host.step]
    · cases hs
  | listPush =>
    simp only [AHost.step] at hs
    split at hs
    · rename_i v a s
      split at hs
      · rename_i m hm
        obtain ⟨o, ho, hr⟩ := r.obj hm
        cases o with
        | table l => exact hr.elim
        | list l =>
          dsimp only at ho
          cases hs
          obtain ⟨l', e, hl⟩ := Holds.append hr v
          refine ⟨.ok ⟨hh.set a (.list l'), .ref .list a :: s, .success :: hrp⟩, by simp only [Host.step, ho, e], (⟨rfl, rfl, ?_⟩ : HostRep (n + 1) _ _)⟩
          exact forall₂_set a (r3.imp fun _ _ => ObjRep.mono (by omega)) hl
      · cases hs
    · rename_i v t s hne
      cases hs
      refine ⟨.ok ⟨hh, t :: s, .typeError :: hrp⟩, ?_, HostRep.mono (n := n) (by omega) ⟨rfl, rfl, r3⟩⟩
      simp only [Host.step]
    · cases hs
  | listGet i =>
    simp only [AHost.step] at hs
    split at hs
    · rename_i a s
      split at hs
      · rename_i xs hm
        obtain ⟨o, ho, hr⟩ := r.obj hm
        cases o with
        | table l => exact hr.elim
        | list l =>
          dsimp only at ho
          have hg := C36_get l xs hr i
          simp only [Host.step, ho]
          split at hs
          · rename_i p hp
            rw [hp] at hg; dsimp only at hg
            split at hs
            · rename_i v hv
              cases hs
              rw [hv] at hg; dsimp only at hg
              rw [hg]
              exact ⟨_, rfl, (HostRep.push (n := n) ⟨rfl, rfl, r3⟩ v).mono (by omega)⟩
            · cases hs
          · rename_i hp
            rw [hp] at hg; dsimp only at hg
            cases hs
            rw [hg]
            exact ⟨_, rfl, trivial⟩
      · cases hs
    · rename_i t s hne
      cases hs
      refine ⟨.ok ⟨hh, t :: s, .typeError :: hrp⟩, ?_, HostRep.mono (n := n) (by omega) ⟨rfl, rfl, r3⟩⟩
      simp only [Host.step]
    · cases hs

theorem host_run {f : Nat} (hf : 2 ^ 33 ≤ f) : ∀ (ops : List HOp) {n : Nat} {h : Host} {a : AHost} {y : HRes AHost}, n + ops.length ≤ 2 ^ 29 → HostRep n h a →
    a.run ops = some y → ∃ x, h.run f ops = some x ∧ ResRep (n + ops.length) x y
  | [], n, h, a, y, _, r, hs => by cases hs; exact ⟨_, rfl, r⟩
  | op :: ops, n, h, a, y, hn, r, hs => by
    simp only [List.length_cons] at hn ⊢
    rw [AHost.run] at hs
    split at hs
    · cases hs
    · rename_i a' hst
      obtain ⟨x, e, hx⟩ := host_step (by omega) hf r hst
      cases x with
      | ok h' =>
        obtain ⟨x', e', hx'⟩ := host_run hf ops (by omega) hx hs
        exact ⟨x', by rw [Host.run, e]; exact e', hx'.mono (by omega)⟩
      | _ => exact hx.elim
    · rename_i y' hne hst
      cases hs
      obtain ⟨x, e, hx⟩ := host_step (by omega) hf r hst
      refine ⟨x, ?_, hx.mono (by omega)⟩
      rw [Host.run, e]
      cases x with
      | ok h' =>
        cases y with
        | ok a' => exact (hne a' rfl).elim
        | _ => exact hx.elim
      | _ => rfl

/-! ## going through a table -/

theorem getIndex_present {t : Table} (h : TInv t) {i : Nat} {k : Val} (hk : GoodKey k) (hi : t.ks[i]? = some k) :
    ∃ f0, ∀ f, f0 ≤ f → t.getIndex f k = some i := by
  obtain ⟨j, hj, hpre⟩ := h.kinv.reach i k hi hk
  rw [ks_length, h.len] at hj hpre
  refine ⟨j + 1, fun f hf => ?_⟩
  obtain ⟨idx, e⟩ := getIndexLoop_total h hk (f := f) (Nat.zero_le j) (by omega) (.inr (by rw [hj]; exact hi))
  obtain ⟨j', -, e1, hp, hend⟩ := getIndexLoop_spec h hk e
  have : idx = i := by
    rcases hend with hu | hkk
    · by_cases hc : j' < j
      · exact absurd (e1 ▸ hu) (hpre j' hc)
      · rcases Nat.eq_or_lt_of_le (Nat.le_of_not_lt hc) with he | hl
        · rw [← e1, ← he, hj, hi] at hu; cases hu; exact (GoodKey.gok.nundef hk).elim
        · exact absurd (by rw [hj]; exact hi) (hp j (Nat.zero_le _) hl).2
    · exact h.kinv.uniq _ _ k hk hkk hi
  rw [Table.getIndex, show (1 : Nat) = 0 + 1 from rfl, e, this]

theorem getIndex_all {t : Table} (h : TInv t) : ∃ f0, ∀ f, f0 ≤ f → ∀ (i : Nat) k, GoodKey k → t.ks[i]? = some k → t.getIndex f k = some i := by
  have key : ∀ n : Nat, ∃ f0, ∀ f, f0 ≤ f → ∀ (i : Nat) k, i < n → GoodKey k → t.ks[i]? = some k → t.getIndex f k = some i := by
    intro n
    induction n with
    | zero => exact ⟨0, fun f _ i k hi => by omega⟩
    | succ n ih =>
      obtain ⟨f0, h0⟩ := ih
      by_cases hc : ∃ k, GoodKey k ∧ t.ks[n]? = some k
      · obtain ⟨k, hk, hn⟩ := hc
        obtain ⟨f1, h1⟩ := getIndex_present h hk hn
        refine ⟨max f0 f1, fun f hf i k' hi hk' hi' => ?_⟩
        rcases Nat.lt_succ_iff_lt_or_eq.1 hi with hi | rfl
        · exact h0 f (by omega) i k' hi hk' hi'
        · rw [hn] at hi'; cases hi'; exact h1 f (by omega)
      · refine ⟨f0, fun f hf i k' hi hk' hi' => ?_⟩
        rcases Nat.lt_succ_iff_lt_or_eq.1 hi with hi | rfl
        · exact h0 f (by omega) i k' hi hk' hi'
        · exact (hc ⟨k', hk', hi'⟩).elim
  obtain ⟨f0, h0⟩ := key t.ks.length
  exact ⟨f0, fun f hf i k hk hi => h0 f hf i k (List.getElem?_eq_some_iff.1 hi).1 hk hi⟩

theorem TInv.nextTest {t : Table} (h : TInv t) {it : Item} (hi : it ∈ t.items) : (it.key.tag != .end_ && it.key.tag != .undef) = it.live := by
  rcases h.pair it hi with rfl | rfl | hg
  · rfl
  · rfl
  · rw [live_good hg]
    have := hg.1
    revert this; cases it.key <;> simp [GoodKey, Val.tag]

theorem visit_from {t : Table} (h : TInv t) {f : Nat} (hf : ∀ (i : Nat) k, GoodKey k → t.ks[i]? = some k → t.getIndex f k = some i) {heap : List CObj} {a : Nat}
    (ha : heap[a]? = some (.table t)) (rest : List Val) (hr : rest.length + 3 ≤ 1024) (rp : List HReply) : ∀ (n i : Nat) (key : Val),
    (if key.tag = .undef then some 0 else (t.getIndex f key).map (· + 1)) = some i → ((t.items.drop i).filter Item.live).length < n →
    Host.visit f n ⟨heap, key :: .ref .table a :: rest, rp⟩ =
      some (.ok (((t.items.drop i).filter Item.live).map fun it => (it.key, it.value), ⟨heap, .ref .table a :: rest, rp⟩))
  | 0, _, _, _, hn => by omega
  | n + 1, i, key, hi, hn => by
    rw [Host.visit, Host.tableNext]
    simp only [ha, hi, Option.map_some]
    cases hx : nextItem t.items i with
    | none =>
      have : (t.items.drop i).filter Item.live = [] := by
        rw [List.filter_eq_nil_iff]
        intro it hit
        rw [nextItem, List.find?_eq_none] at hx
        rw [← h.nextTest (List.mem_of_mem_drop hit)]
        exact hx it hit
      simp [this]
    | some it =>
      obtain ⟨hl, pre, post, e, hpre⟩ := List.find?_eq_some_iff_append.1 hx
      have hmem : it ∈ t.items := List.mem_of_mem_drop (i := i) (by rw [e]; simp)
      rw [h.nextTest hmem] at hl
      have hg := ((entries_mem h it).1 (List.mem_filter.2 ⟨hmem, hl⟩)).1
      have hp : (t.items.drop i).filter Item.live = it :: post.filter Item.live := by
        rw [e, List.filter_append, List.filter_cons, if_pos hl, List.filter_eq_nil_iff.2, List.nil_append]
        intro x hx'
        rw [← h.nextTest (List.mem_of_mem_drop (i := i) (by rw [e]; simp [hx']))]
        have hq := hpre x hx'
        simp only [Bool.not_eq_true'] at hq
        simp [hq]
      have hpos : t.items[i + pre.length]? = some it := by
        have := congrArg (fun l => l[pre.length]?) e
        simpa using this
      have hdrop : t.items.drop (i + pre.length + 1) = post := by
        have := congrArg (fun l => l.drop (pre.length + 1)) e
        simp only [List.drop_drop] at this
        rw [show i + pre.length + 1 = i + (pre.length + 1) by omega, this]
        simp
      have hs : (if it.key.tag = .undef then some 0 else (t.getIndex f it.key).map (· + 1)) = some (i + pre.length + 1) := by
        rw [if_neg (by have := hg; revert this; cases it.key <;> simp [GoodKey, Val.tag]), hf _ _ hg (by rw [ks_get, hpos]; rfl)]; rfl
      rw [hp] at hn ⊢
      have ih := visit_from h hf ha rest hr rp n _ it.key hs (by rw [hdrop]; simpa using hn)
      rw [hdrop] at ih
      simp only [Host.push, List.length_cons]
      rw [if_neg (by omega)]
      simp only [List.length_cons]
      rw [if_neg (by omega)]
      simp only [ih, List.map_cons]

/-- C94: a host program that goes through a table with `YASL_tablenext` (from `undef` on; pop the value, keep the key) sees every entry once, with its value,
and is left with the table on top of the stack.  The table is one any completed history of assignments and removals gives; there are at least three free
places on the stack. -/
theorem C94_visits_all (ops : List TOp) (hok : ∀ op ∈ ops, op.OK) (f1 : Nat) (t : Table) (hr : Table.new.run f1 ops = some t) :
    ∃ f0 n0, ∃ pairs : List (Val × Val), (pairs.map Prod.fst).Nodup ∧ (∀ k v, (k, v) ∈ pairs ↔ specOf ops k = some v) ∧
      ∀ f n (heap : List CObj) a rest rp, f0 ≤ f → n0 ≤ n → heap[a]? = some (.table t) → rest.length + 3 ≤ 1024 →
        Host.visit f n ⟨heap, .undef :: .ref .table a :: rest, rp⟩ = some (.ok (pairs, ⟨heap, .ref .table a :: rest, rp⟩)) := by
  obtain ⟨hi, ha⟩ := run_spec ops new_spec.1 hok hr
  have habs : Abs t (specOf ops) := ha _ new_spec.2
  obtain ⟨f0, h0⟩ := getIndex_all hi
  refine ⟨f0, t.entries.length + 1, t.entries.map fun it => (it.key, it.value), ?_, fun k v => ?_, fun f n heap a rest rp hf hn hh hrest => ?_⟩
  · rw [List.map_map]; exact entries_nodup hi
  · rw [← habs k v, ← entries_mem hi ⟨k, v⟩, List.mem_map]
    constructor
    · rintro ⟨⟨k', v'⟩, hm, e⟩; cases e; exact hm
    · exact fun hm => ⟨_, hm, rfl⟩
  · exact visit_from hi (h0 f hf) hh rest hrest rp n 0 .undef rfl hn

/-- A table with a removal: two entries are left, and both are seen. -/
example : (Table.new.run 100 [.set (.int 1) (.int 7), .set (.str [97]) (.int 8), .set (.int 2) (.int 5), .rm (.int 1)]).map
    (fun t => (Host.visit 100 10 ⟨[.list YList.new, .table t], [.undef, .ref .table 1, .int 9], []⟩).map fun
      | .ok (l, h) => (l, h.stack)
      | _ => ([], [])) = some (some ([(.int 2, .int 5), (.str [97], .int 8)], [.ref .table 1, .int 9])) := by decide +kernel

/-- The table a host program makes with `YASL_pushtable`, `YASL_pushfloat` of NaN, `YASL_pushint` and `YASL_tableset`. -/
def nanTable : List HOp := [.newTable, .push (.float 0x7ff8000000000000#64), .push (.int 1), .tableSet, .push .undef]

/-- C94, counterexample: on a table with a NaN key, going through the table never ends: the key is not found again, so its place is not passed. -/
theorem C94_nan_never_ends : ∃ h, Host.run 100 ⟨[], [], []⟩ nanTable = some (.ok h) ∧ ∀ n, Host.visit 100 n h = none := by
  let t : Table := ⟨31, TABLE_BASESIZE, 1, (List.replicate 31 emptyItem).set 11 ⟨.float 0x7ff8000000000000#64, .int 1⟩⟩
  let h : Val → Host := fun k => ⟨[.table t], [k, .ref .table 0], [.success]⟩
  have hgi : t.getIndex 100 (.float 0x7ff8000000000000#64) = some 7 := by decide +kernel
  have e2 : Host.tableNext 100 (h (.float 0x7ff8000000000000#64)) =
      some (.ok (true, ⟨[.table t], [.int 1, .float 0x7ff8000000000000#64, .ref .table 0], [.success]⟩)) := by
    have : (if (Val.float 0x7ff8000000000000#64).tag = .undef then some 0 else (t.getIndex 100 (.float 0x7ff8000000000000#64)).map (· + 1)) = some 8 := by
      rw [hgi]; rfl
    simp only [Host.tableNext, h, List.getElem?_cons_zero, this]; rfl
  have e1 : Host.tableNext 100 (h .undef) =
      some (.ok (true, ⟨[.table t], [.int 1, .float 0x7ff8000000000000#64, .ref .table 0], [.success]⟩)) := rfl
  have e0 : Table.new.insert 100 (.float 0x7ff8000000000000#64) (.int 1) = some (t, true) := by decide +kernel
  refine ⟨h .undef, ?_, fun n => ?_⟩
  · have e0' : Table.insert 100 Table.new (.float 0x7ff8000000000000#64) (.int 1#64) = some (t, true) := e0
    simp only [nanTable, Host.run, Host.step, Host.push, List.length_nil]; simp [e0', h]
  have key : ∀ n, Host.visit 100 n (h (.float 0x7ff8000000000000#64)) = none := by
    intro n
    induction n with
    | zero => rfl
    | succ n ih => rw [Host.visit, e2]; dsimp only; rw [show Host.visit 100 n _ = none from ih]
  cases n with
  | zero => rfl
  | succ n => rw [Host.visit, e1]; dsimp only; rw [show Host.visit 100 n _ = none from key n]

/-- C95: whatever a host program does with containers through the API (in any order, with any sharing of objects), the stack, the values returned and the
errors raised are those of the specification, every list holds the values pushed to it in order, and every key of a table has the value last set.
`AHost.run` is `none` when a call is outside the claim (see `AHost.step`); at most 2^29 calls. -/
theorem C95_host_containers_partial (ops : List HOp) (y : HRes AHost) (hy : AHost.run ⟨[], [], []⟩ ops = some y) (hlen : ops.length ≤ 2 ^ 29) (f : Nat)
    (hf : 2 ^ 33 ≤ f) :
    (y = .overflow → Host.run f ⟨[], [], []⟩ ops = some .overflow) ∧ (y = .valueError → Host.run f ⟨[], [], []⟩ ops = some .valueError) ∧ y ≠ .ub ∧
    ∀ a, y = .ok a → ∃ h, Host.run f ⟨[], [], []⟩ ops = some (.ok h) ∧ h.stack = a.stack ∧ h.replies = a.replies ∧ h.heap.length = a.heap.length ∧
      (∀ (i : Nat) xs, a.heap[i]? = some (.list xs) → ∃ l, h.heap[i]? = some (.list l) ∧ l.forItems = .ok xs ∧ l.count = xs.length) ∧
      (∀ (i : Nat) m, a.heap[i]? = some (.table m) → ∃ t, h.heap[i]? = some (.table t) ∧ ∀ k, GoodKey k → t.search f k = some ((m k).getD .end_)) := by
  obtain ⟨x, e, hx⟩ := host_run hf ops (n := 0) (by omega) (⟨rfl, rfl, .nil⟩ : HostRep 0 ⟨[], [], []⟩ ⟨[], [], []⟩) hy
  rw [Nat.zero_add] at hx
  refine ⟨?_, ?_, ?_, ?_⟩
  · rintro rfl; cases x <;> first | exact e | exact hx.elim
  · rintro rfl; cases x <;> first | exact e | exact hx.elim
  · rintro rfl; cases x <;> exact hx.elim
  · rintro a rfl
    cases x with
    | ok h =>
      refine ⟨h, e, hx.stack, hx.replies, hx.heap.length_eq, fun i xs hi => ?_, fun i m hi => ?_⟩
      · obtain ⟨o, ho, hr⟩ := HostRep.obj hx hi
        cases o with
        | table t => exact hr.elim
        | list l => exact ⟨l, ho, Holds.forItems hr, YList.Holds.count hr⟩
      · obtain ⟨o, ho, hr⟩ := HostRep.obj hx hi
        cases o with
        | list l => exact hr.elim
        | table t =>
          obtain ⟨tops, h1, h2, h3, h4, rfl⟩ := hr
          obtain ⟨t', e', hs⟩ := C01_assignments_partial tops h1 h2 (by omega) f hf
          rw [h4 f hf] at e'; cases e'
          exact ⟨t, ho, hs⟩
    | _ => exact hx.elim

/-- The same table in a list twice, set through one of the two; a list as a key is refused; the value of a key is set again. -/
def hostDemo : List HOp := [.newTable, .newList, .push (.int 1), .listPush, .push (.str [65]), .listPush, .listGet (-1), .pop, .pop,
  .push (.str [66]), .push (.int 4), .tableSet, .newList, .push (.int 4), .tableSet, .push (.str [66]), .push (.int 5), .tableSet, .dup, .push (.int 0), .listPush]

example : ∃ a, AHost.run ⟨[], [], []⟩ hostDemo = some (.ok a) ∧ a.stack = [.ref .table 0, .ref .table 0] ∧
    a.replies = [.typeError, .success, .typeError, .success, .success, .success, .success] ∧
    ∃ m, a.heap = [.table m, .list [.int 1, .str [65]], .list []] ∧ m (.str [66]) = some (.int 5) ∧ m (.str [65]) = none :=
  ⟨_, rfl, rfl, rfl, _, rfl, rfl, rfl⟩
example : AHost.run ⟨[], [], []⟩ [.newList, .push (.int 1), .listPush, .listGet 1] = some .valueError := rfl

/-- C94 and C95 together: a table that a host program has made is visited completely. -/
theorem C94_host_partial (ops : List HOp) (a : AHost) (hy : AHost.run ⟨[], [], []⟩ ops = some (.ok a)) (hlen : ops.length ≤ 2 ^ 29) (i : Nat) (rest : List Val)
    (hst : a.stack = .undef :: .ref .table i :: rest) (hrest : rest.length + 3 ≤ 1024) (m : Val → Option Val) (hm : a.heap[i]? = some (.table m)) (f : Nat)
    (hf : 2 ^ 33 ≤ f) :
    ∃ h, Host.run f ⟨[], [], []⟩ ops = some (.ok h) ∧ ∃ f0 n0, ∃ pairs : List (Val × Val), (pairs.map Prod.fst).Nodup ∧ (∀ k v, (k, v) ∈ pairs ↔ m k = some v) ∧
      ∀ f n, f0 ≤ f → n0 ≤ n → Host.visit f n h = some (.ok (pairs, { h with stack := .ref .table i :: rest })) := by
  obtain ⟨x, e, hx⟩ := host_run hf ops (n := 0) (by omega) (⟨rfl, rfl, .nil⟩ : HostRep 0 ⟨[], [], []⟩ ⟨[], [], []⟩) hy
  rw [Nat.zero_add] at hx
  cases x with
  | ok h =>
    obtain ⟨o, ho, hr⟩ := HostRep.obj hx hm
    cases o with
    | list l => exact hr.elim
    | table t =>
      obtain ⟨tops, o1, o2, o3, o4, rfl⟩ := hr
      obtain ⟨f0, n0, pairs, p1, p2, p3⟩ := C94_visits_all tops o2 _ t (o4 _ (le_refl _))
      refine ⟨h, e, f0, n0, pairs, p1, p2, fun f' n hf' hn => ?_⟩
      have e2 : h.stack = .undef :: .ref .table i :: rest := by rw [← hst]; exact hx.stack
      obtain ⟨hh, hs, hrp⟩ := h
      dsimp only at e2 ho
      subst e2
      exact p3 f' n hh i rest hrp hf' hn ho hrest
  | _ => exact hx.elim

example : ∃ a m, AHost.run ⟨[], [], []⟩ [.newTable, .push (.int 1), .push (.int 7), .tableSet, .push .undef] = some (.ok a) ∧
    a.stack = [.undef, .ref .table 0] ∧ a.heap[0]? = some (.table m) ∧ m (.int 1) = some (.int 7) := ⟨_, _, rfl, rfl, rfl, rfl⟩

/-- `YASL_pushtable`, and `YASL_tableset` of 7 and then of `undef` at the key 1. -/
def undefTable : List HOp := [.newTable, .push (.int 1), .push (.int 7), .tableSet, .push (.int 1), .push .undef, .tableSet]

/-- C95, counterexample: `undef` set by the host is counted but not there: the table has length 1, and a loop over it visits nothing.  (The same two assignments in a
program, `t[1] = 7; t[1] = undef`, leave a table of length 0.) -/
theorem C95_undef_counterexample :
    (∃ h t, Host.run 100 ⟨[], [], []⟩ undefTable = some (.ok h) ∧ h.heap = [.table t] ∧ t.keys = [] ∧ t.search 100 (.int 1) = some .undef ∧ t.length = 1) ∧
    ∃ t u, Table.new.set 100 (.int 1) (.int 7) = some (.ok t) ∧ t.set 100 (.int 1) .undef = some (.ok u) ∧ u.keys = [] ∧ u.length = 0 := by
  constructor
  · have hd : (match Host.run 100 ⟨[], [], []⟩ undefTable with
      | some (.ok ⟨[.table t], _, _⟩) => decide (t.keys = [] ∧ t.search 100 (.int 1) = some .undef ∧ t.length = 1)
      | _ => false) = true := by decide +kernel
    split at hd
    · exact ⟨_, _, ‹_›, rfl, of_decide_eq_true hd⟩
    · cases hd
  · have hd : (match Table.new.set 100 (.int 1) (.int 7) with
      | some (.ok t) => match t.set 100 (.int 1) .undef with
        | some (.ok u) => decide (u.keys = [] ∧ u.length = 0)
        | _ => false
      | _ => false) = true := by decide +kernel
    split at hd
    · split at hd
      · exact ⟨_, _, ‹_›, ‹_›, of_decide_eq_true hd⟩
      · cases hd
    · cases hd

/-- 1 ↦ 7 and 32 ↦ 8 (which follows 1 in its chain), then `undef` at the key 1, then 32 ↦ 9. -/
def twiceTable : List HOp :=
  [.newTable, .push (.int 1), .push (.int 7), .tableSet, .push (.int 32), .push (.int 8), .tableSet, .push (.int 1), .push .undef, .tableSet,
    .push (.int 32), .push (.int 9), .tableSet]

/-- C95, second counterexample: after `undef` has been set by the host, a key that the table has can be added again: the table then has the key 32 twice, once with the old
value and once with the new one, and a loop over it visits both. -/
theorem C95_duplicate_counterexample :
    ∃ h t, Host.run 100 ⟨[], [], []⟩ twiceTable = some (.ok h) ∧ h.heap = [.table t] ∧ t.keys = [.int 32, .int 32] ∧ t.values = [.int 9, .int 8] ∧ t.length = 3 := by
  have hd : (match Host.run 100 ⟨[], [], []⟩ twiceTable with
    | some (.ok ⟨[.table t], _, _⟩) => decide (t.keys = [.int 32, .int 32] ∧ t.values = [.int 9, .int 8] ∧ t.length = 3)
    | _ => false) = true := by decide +kernel
  split at hd
  · exact ⟨_, _, ‹_›, rfl, of_decide_eq_true hd⟩
  · cases hd

end Yasl
