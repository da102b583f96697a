import Verif.Proofs.World
import Verif.Proofs.CompileExpr
set_option autoImplicit false
/-! # Operations on lists and tables do what they do on sequences and maps -/
namespace Yasl
open Spec

/-! ## Calls -/

theorem allMeths_nodup : (AWorld.calls.allMeths.map Meth.val).Nodup := by decide +kernel
theorem allBuiltins_nodup : (allBuiltins.map fun e => e.2.1.val).Nodup := by decide +kernel
theorem allMeths_builtin : ∀ m ∈ AWorld.calls.allMeths, ∃ e ∈ allBuiltins, e.2.1 = m := by decide +kernel

/-- How many arguments a method looks at. -/
def Meth.reads : Meth → Nat
  | .strReplace => 4
  | .listInsert => 3
  | .listPush | .listCount | .listSearch | .strStartswith | .strEndswith | .strSearch | .strRep | .strLtrim | .strRtrim | .strTrim | .strCount | .strSplit | .listJoin | .tableRemove => 2
  | _ => 1

theorem builtin_reads : ∀ e ∈ allBuiltins, e.2.1.reads ≤ e.2.2 := by decide +kernel

theorem AWorld.call_congr (a : AWorld) (m : Meth) {x y : Nat → Val} (h : ∀ i < m.reads, x i = y i) : a.call m x = a.call m y := by
  have h0 : x 0 = y 0 := h 0 (by cases m <;> decide)
  cases m <;> first
    | (simp only [AWorld.call, h0]; done)
    | (have h1 := h 1 (by decide); simp only [AWorld.call, h0, h1]; done)
    | (have h1 := h 1 (by decide); have h2 := h 2 (by decide); simp only [AWorld.call, h0, h1, h2]; done)
    | (have h1 := h 1 (by decide); have h2 := h 2 (by decide); have h3 := h 3 (by decide); simp only [AWorld.call, h0, h1, h2, h3]; done)

theorem fillArgs_getD {n i : Nat} (hi : i < n) (args : List Val) : (fillArgs n args).getD i .undef = args.getD i .undef := by
  rw [fillArgs, List.getD_eq_getElem?_getD, List.getD_eq_getElem?_getD, List.getElem?_take_of_lt hi]
  by_cases h : i < args.length
  · rw [List.getElem?_append_left h]
  · rw [List.getElem?_append_right (by omega), List.getElem?_eq_none (l := args) (by omega), List.getElem?_replicate]
    split <;> rfl

theorem callFound_eq {f : Nat} {strtod : List Byte → BitVec 64} {w : World} {e : String × Meth × Nat} (he : e ∈ allBuiltins) (args : List Val) :
    w.callFound f strtod e.2.1.val args = w.callMeth f strtod e.2.1 fun i => (fillArgs e.2.2 args).getD i .undef := by
  rw [World.callFound]
  cases h : allBuiltins.find? fun e' => decide (e'.2.1.val = e.2.1.val) with
  | none =>
    rw [List.find?_eq_none] at h
    exact absurd (h e he) (by simp)
  | some e' =>
    have h1 := by simpa using List.find?_some h
    have h2 := List.mem_of_find?_eq_some h
    rw [List.inj_on_of_nodup_map allBuiltins_nodup h2 he h1]

section
variable {f : Nat} (hf : 2 ^ 33 ≤ f) (strtod : List Byte → BitVec 64) {w : World} {a : AWorld} (r : WRep w a)
include hf r

theorem callFound_sim {e : String × Meth × Nat} (he : e ∈ allBuiltins) (args : List Val) :
    PSim (w.callFound f strtod e.2.1.val args) (a.call e.2.1 fun i => args.getD i .undef) := by
  rw [callFound_eq he]
  have := call_sim hf strtod r e.2.1 fun i => (fillArgs e.2.2 args).getD i .undef
  rwa [a.call_congr e.2.1 (y := fun i => args.getD i .undef) fun i hi => fillArgs_getD (hi.trans_le (builtin_reads e he)) args] at this

/-- A call of a value which is a C function. -/
theorem callAny_sim (fn : Val) (args : List Val) : PSim (w.callFound f strtod fn args) (a.calls fn args) := by
  rw [AWorld.calls]
  cases h : AWorld.calls.allMeths.find? fun m => decide (m.val = fn) with
  | none => exact .unknown
  | some m =>
    have h1 := by simpa using List.find?_some h
    obtain ⟨e, he, rfl⟩ := allMeths_builtin m (List.mem_of_find?_eq_some h)
    subst h1
    exact callFound_sim hf strtod r he args

end

theorem Meth.val_tag (m : Meth) : m.val.tag ≠ .end_ := by simp [Meth.val, Val.tag]

theorem plainKey_str (s : List Byte) : AWorld.plainKey (.str s) := .inl trivial

/-- The method with a name is looked up and called. -/
theorem viaMethod_eq {f : Nat} (hf : 2 ^ 33 ≤ f) (strtod : List Byte → BitVec 64) (w : World) {v : Val} {es : List (String × Meth × Nat)} (h : builtinsOf v = .ok es)
    (name : String) (args : List Val) : w.viaMethod f strtod v name args = match methodOf v (.str (ascii name)) with
      | some m => w.callFound f strtod m.val args
      | none => (w, .error .type) := by
  obtain ⟨mt, e, hs⟩ := mtOf_spec hf h
  rw [World.viaMethod, e]
  dsimp only
  rw [hs _ (plainKey_str _)]
  cases methodOf v (.str (ascii name)) with
  | none => rfl
  | some m => dsimp only; rw [Option.map_some, Option.getD_some, if_neg m.val_tag]

/-- Values of the types that have a metatable. -/
def Val.known : Val → Bool
  | .undef | .bool _ | .int _ | .float _ | .str _ | .ref .list _ | .ref .table _ => true
  | _ => false

theorem Val.known.builtins : ∀ {v : Val}, v.known = true → ∃ es, builtinsOf v = .ok es
  | .undef, _ | .bool _, _ | .int _, _ | .float _, _ | .str _, _ | .ref .list _, _ | .ref .table _, _ => ⟨_, rfl⟩
  | .end_, h | .userptr _, h | .ref .fn _, h | .ref .cfn _, h | .ref .closure _, h | .ref .userdata _, h => by cases h

/-- A value of the same type. -/
def Val.proto : Val → Val
  | .undef => .undef
  | .float _ => .float 0
  | .int _ => .int 0
  | .bool _ => .bool false
  | .str _ => .str []
  | .ref k _ => .ref k 0
  | .userptr _ => .end_
  | .end_ => .end_

theorem methodsOf_proto (v : Val) : methodsOf v = methodsOf v.proto := by
  cases v with
  | ref k p => cases k <;> rfl
  | _ => rfl

theorem methodOf_proto (v k : Val) : methodOf v k = methodOf v.proto k := by
  cases k with
  | str s => rw [methodOf, methodOf, methodsOf_proto]
  | _ => rfl

/-- No method has the name. -/
theorem noMethod {f : Nat} (hf : 2 ^ 33 ≤ f) (strtod : List Byte → BitVec 64) (w : World) {v pv : Val} (hv : v.known = true) (hp : v.proto = pv) (name : String)
    (args : List Val) (h : methodOf pv (.str (ascii name)) = none) : w.viaMethod f strtod v name args = (w, .error .type) := by
  obtain ⟨es, he⟩ := Val.known.builtins hv
  rw [viaMethod_eq hf strtod w he, methodOf_proto, hp, h]

/-- A method has the name. -/
theorem hasMethod {f : Nat} (hf : 2 ^ 33 ≤ f) (strtod : List Byte → BitVec 64) (w : World) {v pv : Val} (hv : v.known = true) (hp : v.proto = pv) (name : String)
    (args : List Val) {m : Meth} (h : methodOf pv (.str (ascii name)) = some m) : w.viaMethod f strtod v name args = w.callFound f strtod m.val args := by
  obtain ⟨es, he⟩ := Val.known.builtins hv
  rw [viaMethod_eq hf strtod w he, methodOf_proto, hp, h]

theorem noUnary : ∀ o : UnOp, ∀ v ∈ ([.undef, .float 0, .int 0, .bool false, .str [], .ref .list 0, .ref .table 0] : List Val), o ≠ .len → o ≠ .not →
    methodOf v (.str (ascii (match o with | .neg => "__neg" | .pos => "__pos" | .bnot => "__bnot" | _ => ""))) = none := by
  intro o; cases o <;> decide +kernel

theorem noBinary : ∀ o : BinOp, o ∉ ([.cnct, .id, .eq, .add, .bor] : List BinOp) →
    ∀ v ∈ ([.undef, .float 0, .int 0, .bool false, .str [], .ref .list 0, .ref .table 0] : List Val), methodOf v (.str (ascii (World.binName o))) = none := by
  intro o; cases o <;> decide +kernel

theorem proto_known : ∀ {v : Val}, v.known = true → v.proto ∈ ([.undef, .float 0, .int 0, .bool false, .str [], .ref .list 0, .ref .table 0] : List Val)
  | .undef, _ | .bool _, _ | .int _, _ | .float _, _ | .str _, _ | .ref .list _, _ | .ref .table _, _ => by simp [Val.proto]
  | .end_, h | .userptr _, h | .ref .fn _, h | .ref .cfn _, h | .ref .closure _, h | .ref .userdata _, h => by cases h

/-! ## Operations -/

theorem one_ok {w : World} {v : Val} {vs : List Val} : World.one (w, .ok (v :: vs)) = (w, .ok v) := rfl

section
variable {f : Nat} (hf : 2 ^ 33 ≤ f) (strtod : List Byte → BitVec 64) {w : World} {a : AWorld} (r : WRep w a)
include hf r

theorem tostr_sim (v : Val) : PSim (w.tostr f strtod v) (a.tostr v) := by
  rw [AWorld.tostr]
  cases ht : AWorld.text a.heap 500 [] v with
  | none => exact .unknown
  | some t =>
    have leaf : ∀ (e : String × Meth × Nat) (pv : Val), e ∈ allBuiltins → v.known = true → v.proto = pv → methodOf pv (.str (ascii "tostr")) = some e.2.1 →
        a.call e.2.1 (fun i => [v].getD i .undef) = (a, .ok [.str t]) → PSim (w.tostr f strtod v) (a, .ok t) := by
      intro e pv he hv hpv hm hc
      have hnd : v.printsDirectly = false := by cases v <;> first | rfl | (rename_i k _; cases k <;> first | rfl | cases hv) | cases hv
      have h := callFound_sim hf strtod r he [v]
      rw [hc] at h
      rcases h with h | ⟨h1, h2⟩
      · cases h
      · rw [World.tostr, if_neg (by simp [hnd]), hasMethod hf strtod w hv hpv _ _ hm]
        generalize w.callFound f strtod e.2.1.val [v] = q at h1 h2
        obtain ⟨w', e'⟩ := q
        dsimp only at h1 h2
        subst h1
        exact .mk h2 _
    have hts : a.tostr v = (a, .ok t) := by rw [AWorld.tostr, ht]
    cases v with
    | undef => refine leaf ("tostr", .undefTostr, 1) .undef (by decide +kernel) rfl rfl (by decide +kernel) ?_; rw [AWorld.call, if_pos (by rfl)]; show (a.tostr _).bind _ = _; exact congrArg (fun q : PRes AWorld (List Byte) => q.bind fun w t => (w, .ok [Val.str t])) hts
    | bool b => refine leaf ("tostr", .boolTostr, 1) (.bool false) (by decide +kernel) rfl rfl (by decide +kernel) ?_; rw [AWorld.call, if_pos (by rfl)]; show (a.tostr _).bind _ = _; exact congrArg (fun q : PRes AWorld (List Byte) => q.bind fun w t => (w, .ok [Val.str t])) hts
    | int i => refine leaf ("tostr", .intTostr, 1) (.int 0) (by decide +kernel) rfl rfl (by decide +kernel) ?_; rw [AWorld.call, if_pos (by rfl)]; show (a.tostr _).bind _ = _; exact congrArg (fun q : PRes AWorld (List Byte) => q.bind fun w t => (w, .ok [Val.str t])) hts
    | float i => refine leaf ("tostr", .floatTostr, 1) (.float 0) (by decide +kernel) rfl rfl (by decide +kernel) ?_; rw [AWorld.call, if_pos (by rfl)]; show (a.tostr _).bind _ = _; exact congrArg (fun q : PRes AWorld (List Byte) => q.bind fun w t => (w, .ok [Val.str t])) hts
    | str i => refine leaf ("tostr", .strTostr, 1) (.str []) (by decide +kernel) rfl rfl (by decide +kernel) ?_; rw [AWorld.call, if_pos (by rfl)]; show (a.tostr _).bind _ = _; exact congrArg (fun q : PRes AWorld (List Byte) => q.bind fun w t => (w, .ok [Val.str t])) hts
    | end_ => cases ht
    | userptr p => cases ht
    | ref k p =>
      cases k with
      | list =>
        refine leaf ("tostr", .listTostr, 1) (.ref .list 0) (by decide +kernel) rfl rfl (by decide +kernel) ?_
        show a.onList (.ref .list p) (fun _ _ => (a.tostr (.ref .list p)).bind _) = _
        rw [hts, AWorld.onList]
        rw [AWorld.text, if_neg (by simp)] at ht
        rcases hx : a.heap[p]? with _ | (xs | ⟨kvs, d⟩)
        · rw [hx] at ht; cases ht
        · rfl
        · rw [hx] at ht; cases ht
      | table =>
        rw [World.tostr, if_neg (by simp [Val.printsDirectly]), hasMethod hf strtod w (m := .tableTostr) (pv := .ref .table 0) rfl rfl _ _ (by decide +kernel),
          callFound_eq (e := ("tostr", .tableTostr, 1)) (by decide +kernel)]
        show PSim ((World.one (w.checkTable (.ref .table p) fun p _ => w.textOf f p)).bind _) _
        have ht' := ht
        rw [AWorld.text, if_neg (by simp)] at ht'
        rcases hx : a.heap[p]? with _ | (xs | ⟨kvs, d⟩)
        · rw [hx] at ht'; cases ht'
        · rw [hx] at ht'; cases ht'
        · obtain ⟨tb, h1, -, -⟩ := r.table hx
          rw [World.checkTable, h1]
          dsimp only
          rw [textOf_sim hf r (.inr rfl) ht]
          exact .mk r _
      | _ => cases ht

omit hf in
theorem newList_sim (vs : List Val) : PSim (w.newList vs) (a.newList vs) := by
  obtain ⟨l, e, hl⟩ := Holds.appendAll (show YList.new.Holds [] from Holds.newSized _) vs
  rw [World.newList, e, World.out, AWorld.newList, r.length]
  exact .inr ⟨rfl, r.addList (by simpa using hl)⟩

omit hf in
theorem slice_sim (c x y : Val) : PSim (w.slice c x y) (a.slice c x y) := by
  have key : PSim (w.checkList c fun _ l => w.out (listSlice l x y) fun l => (w.add (.list l), .ok (.ref .list w.heap.length)))
      (a.onList c fun _ xs => match AWorld.bound x, AWorld.bound y with
        | some x, some y => a.newList (Spec.slice xs x y)
        | _, _ => a.typeErr) := by
    refine r.onList fun p l xs _ _ _ hl => ?_
    have bad : (AWorld.bound x = none ∨ AWorld.bound y = none) → listSlice l x y = .typeError := by
      intro hb
      by_cases hy : AWorld.bound y = none
      · refine C39_bad_bound l x y ⟨fun i e => ?_, fun e => ?_⟩ <;> subst e <;> cases hy
      · have hx : AWorld.bound x = none := hb.resolve_right hy
        rw [listSlice]
        cases y with
        | undef => rw [sliceEnd, Out.bind_ok]; cases x <;> first | rfl | cases hx
        | int i => rw [sliceEnd, Out.bind_ok]; cases x <;> first | rfl | cases hx
        | _ => exact absurd rfl hy
    cases hx : AWorld.bound x with
    | none => rw [bad (.inl hx)]; exact .mk r _
    | some x' =>
      cases hy : AWorld.bound y with
      | none => rw [bad (.inr hy)]; exact .mk r _
      | some y' =>
        have bv : ∀ {z : Val} {z' : Option Int}, AWorld.bound z = some z' → ∃ b : Option (BitVec 64), boundVal b = z ∧ b.map BitVec.toInt = z' := by
          intro z z' hz
          cases z with
          | undef => cases hz; exact ⟨none, rfl, rfl⟩
          | int i => cases hz; exact ⟨some i, rfl, rfl⟩
          | _ => cases hz
        obtain ⟨bx, rfl, rfl⟩ := bv hx
        obtain ⟨b', rfl, rfl⟩ := bv hy
        obtain ⟨l', e, hl'⟩ := C39_slice l xs hl bx b'
        dsimp only
        rw [e, World.out, AWorld.newList, r.length]
        exact .inr ⟨rfl, r.addList hl'⟩
  cases c with
  | str s => exact .unknown
  | _ => exact key

omit hf in
theorem next_sim (c : Val) (i : Nat) : PSim (w.next c i) (a.next c i) := by
  cases c with
  | ref k p =>
    cases k with
    | list =>
      rw [AWorld.next, AWorld.onList, World.next, World.collOf]
      rcases hx : a.heap[p]? with _ | (xs | ⟨kvs, d⟩)
      · exact .unknown
      · obtain ⟨l, hl, hh⟩ := r.list hx
        rw [hl]; dsimp only
        rw [Holds.forItems hh]; dsimp only
        rw [iter1]
        cases xs[i]? with
        | none => exact .mk r _
        | some v =>
          dsimp only
          split
          · exact .unknown
          · exact .mk r _
      · exact .unknown
    | _ => exact .unknown
  | str s => exact .unknown
  | end_ => exact .unknown
  | userptr p => exact .unknown
  | _ => exact .mk r _

omit hf r in
theorem eq_leaf (heap : List WObj) (w : World) {x y : Val} (hl : ∀ p q, ¬ (x = .ref .list p ∧ y = .ref .list q)) (ht : ∀ p q, ¬ (x = .ref .table p ∧ y = .ref .table q)) (f n n' : Nat) (b : Bool)
    (h : AWorld.same heap n x y = some b) : w.eqVals f (n' + 1) x y = .ok b := by
  cases x with
  | ref k p =>
    cases y with
    | ref k' q =>
      cases k <;> cases k' <;> first
        | exact absurd ⟨rfl, rfl⟩ (hl p q)
        | exact absurd ⟨rfl, rfl⟩ (ht p q)
        | (cases n <;> cases h <;> rfl)
    | _ => cases k <;> cases n <;> cases h <;> rfl
  | _ => cases y <;> cases n <;> cases h <;> rfl

omit hf r in
theorem entryAt_mem {kvs : List (Val × Val)} (hn : (kvs.map Prod.fst).Nodup) (e : Val × Val) : entryAt kvs e.1 = some e.2 ↔ e ∈ kvs := by
  rw [entryAt]
  constructor
  · intro h
    obtain ⟨x, hx, e2⟩ := Option.map_eq_some_iff.1 h
    have h1 := List.find?_some hx
    have h2 := List.mem_of_find?_eq_some hx
    have : x = e := Prod.ext (of_decide_eq_true h1) e2
    rwa [← this]
  · intro h
    cases hx : kvs.find? fun p => decide (p.1 = e.1) with
    | none => rw [List.find?_eq_none] at hx; exact absurd (decide_eq_true rfl) (hx e h)
    | some x =>
      have h1 : x.1 = e.1 := by simpa using List.find?_some hx
      have h2 := List.mem_of_find?_eq_some hx
      rw [(List.inj_on_of_nodup_map hn) h2 h h1]; rfl

omit hf r in
theorem TRep.entry_mem {d : Nat} {t : Table} {kvs : List (Val × Val)} (h : TRep d t (entryAt kvs)) (hn : (kvs.map Prod.fst).Nodup) (it : Item) :
    it ∈ t.entries ↔ (it.key, it.value) ∈ kvs := by
  rw [entries_mem h.good.inv, ← entryAt_mem hn]
  exact h.abs it.key it.value

omit r in
/-- The loop of `table___eq`, if the comparisons are known. -/
theorem goTable_sim {d : Nat} {t : Table} {ys : List (Val × Val)} (h : TRep d t (entryAt ys)) {eq : Val → Val → Except RtErr Bool} {eq' : Val → Val → Option Bool}
    (he : ∀ x y b, eq' x y = some b → eq x y = .ok b) : ∀ (its : List Item), (∀ it ∈ its, GoodKey it.key) →
      (∀ it ∈ its, ∃ b, AWorld.same.entry eq' ys (it.key, it.value) = some b) →
      ∃ b, World.eqVals.goTable f eq t its = .ok b ∧ (b = true ↔ ∀ it ∈ its, AWorld.same.entry eq' ys (it.key, it.value) = some true)
  | [], _, _ => ⟨true, rfl, by simp⟩
  | it :: its, hg, hk => by
    have hg1 := hg it (by simp)
    obtain ⟨b, hb⟩ := hk it (by simp)
    obtain ⟨b', i1, i2⟩ := goTable_sim h he its (fun x hx => hg x (by simp [hx])) (fun x hx => hk x (by simp [hx]))
    rw [World.eqVals.goTable, h.search hf (.inl hg1)]
    dsimp only
    have hb' := hb
    rw [AWorld.same.entry] at hb'
    dsimp only at hb'
    cases hy : entryAt ys it.key with
    | none =>
      rw [hy] at hb'; cases hb'
      refine ⟨false, rfl, ?_⟩
      simp only [Bool.false_eq_true, false_iff]
      intro hc
      have := hc it (by simp)
      rw [hb] at this; cases this
    | some v =>
      rw [hy] at hb'
      have hv : LiveVal v := by
        obtain ⟨h1, h2⟩ := (h.abs it.key v).2 hy
        exact (entries_live h.good.inv ((entries_mem h.good.inv ⟨it.key, v⟩).2 ⟨h1, h2⟩)).2
      rw [Option.getD_some, if_neg (by intro hc; apply hv.2; revert hc; cases v <;> simp [Val.tag])]
      rw [he _ _ _ hb']
      cases b with
      | false =>
        refine ⟨false, rfl, ?_⟩
        simp only [Bool.false_eq_true, false_iff]
        intro hc
        have := hc it (by simp)
        rw [hb] at this; cases this
      | true =>
        refine ⟨b', i1, i2.trans ?_⟩
        simp only [List.mem_cons, forall_eq_or_imp, hb, true_and]

theorem eq_sim : ∀ (n n' : Nat) (x y : Val) (b : Bool), n < n' → AWorld.same a.heap n x y = some b → w.eqVals f n' x y = .ok b := by
  intro n
  induction n with
  | zero =>
    intro n' x y b hn h
    obtain ⟨n', rfl⟩ : ∃ g, n' = g + 1 := ⟨n' - 1, by omega⟩
    refine eq_leaf a.heap w ?_ ?_ f 0 n' b h
    · rintro p q ⟨rfl, rfl⟩; cases h
    · rintro p q ⟨rfl, rfl⟩; cases h
  | succ n ih =>
    intro n' x y b hn h
    obtain ⟨n', rfl⟩ : ∃ g, n' = g + 1 := ⟨n' - 1, by omega⟩
    by_cases hl : ∃ p q, x = .ref .list p ∧ y = .ref .list q
    · obtain ⟨p, q, rfl, rfl⟩ := hl
      rw [AWorld.same] at h
      rw [World.eqVals]
      rcases hx : a.heap[p]? with _ | (xs | ⟨kvs, d⟩)
      · rw [hx] at h; cases h
      · rcases hy : a.heap[q]? with _ | (ys | kvs)
        · rw [hx, hy] at h; cases h
        · rw [hx, hy] at h
          obtain ⟨l, hl, hh⟩ := r.list hx
          obtain ⟨l', hl', hh'⟩ := r.list hy
          rw [hl, hl']
          dsimp only at h ⊢
          rw [hh.count, hh'.count]
          by_cases hlen : xs.length = ys.length
          · rw [if_pos hlen] at h
            rw [if_neg (by simpa using hlen), Holds.forItems hh, Holds.forItems hh']
            dsimp only
            clear hx hy hl hl' hh hh' hlen
            induction xs generalizing ys with
            | nil => cases ys <;> (cases h; rfl)
            | cons x xs ihx =>
              cases ys with
              | nil => cases h; rfl
              | cons y ys =>
                rw [AWorld.same.all2] at h
                rw [World.eqVals.go]
                cases hxy : AWorld.same a.heap n x y with
                | none => rw [hxy] at h; cases h
                | some c =>
                  rw [hxy] at h
                  rw [ih n' x y c (by omega) hxy]
                  cases c with
                  | true => exact ihx ys h
                  | false => cases h; rfl
          · rw [if_neg hlen] at h; cases h
            rw [if_pos hlen]
        · rw [hx, hy] at h; cases h
      · rw [hx] at h; cases h
    by_cases ht : ∃ p q, x = .ref .table p ∧ y = .ref .table q
    · obtain ⟨p, q, rfl, rfl⟩ := ht
      rw [AWorld.same] at h
      rw [World.eqVals]
      rcases hx : a.heap[p]? with _ | (xs | ⟨xs, d⟩)
      · rw [hx] at h; cases h
      · rw [hx] at h; cases h
      · rcases hy : a.heap[q]? with _ | (ys | ⟨ys, d'⟩)
        · rw [hx, hy] at h; cases h
        · rw [hx, hy] at h; cases h
        · rw [hx, hy] at h
          obtain ⟨l, hl, h1, h2⟩ := r.table hx
          obtain ⟨l', hl', h3, h4⟩ := r.table hy
          rw [hl, hl']
          dsimp only at h ⊢
          have c1 : l.count = xs.length := h1.length h2
          have c2 : l'.count = ys.length := h3.length h4
          rw [c1, c2]
          by_cases hlen : xs.length = ys.length
          · rw [if_pos hlen] at h
            rw [if_neg (by simpa using hlen)]
            obtain ⟨rs, hrs, rfl⟩ := Option.map_eq_some_iff.1 h
            have hall := mapM_some_iff hrs
            have known : ∀ e ∈ xs, ∃ b ∈ rs, AWorld.same.entry (AWorld.same a.heap n) ys e = some b := fun e he => by
              obtain ⟨i, hi, rfl⟩ := List.getElem_of_mem he
              have hi' : i < rs.length := hall.length_eq ▸ hi
              exact ⟨rs[i], List.getElem_mem hi', hall.get hi hi'⟩
            have known' : ∀ b ∈ rs, ∃ e ∈ xs, AWorld.same.entry (AWorld.same a.heap n) ys e = some b := fun e he => by
              obtain ⟨i, hi, rfl⟩ := List.getElem_of_mem he
              have hi' : i < xs.length := hall.length_eq ▸ hi
              exact ⟨xs[i], List.getElem_mem hi', hall.get hi' hi⟩
            obtain ⟨b, e1, e2⟩ := goTable_sim hf h3 (eq := w.eqVals f n') (eq' := AWorld.same a.heap n) (fun x y b hb => ih n' x y b (by omega) hb) l.entries
              (fun it hit => (entries_live h1.good.inv hit).1)
              (fun it hit => (known _ ((h1.entry_mem h2 it).1 hit)).imp fun _ h => h.2)
            rw [e1]
            congr 1
            rw [Bool.eq_iff_iff, e2, List.all_eq_true]
            constructor
            · intro hc b hb
              obtain ⟨e, he, hb'⟩ := known' b hb
              have := hc ⟨e.1, e.2⟩ ((h1.entry_mem h2 ⟨e.1, e.2⟩).2 he)
              rw [hb'] at this; cases this; rfl
            · intro hc it hit
              obtain ⟨b, hb, hb'⟩ := known _ ((h1.entry_mem h2 it).1 hit)
              rw [hb']; have := hc b hb; simp only [id] at this; rw [this]
          · rw [if_neg hlen] at h; cases h
            rw [if_pos hlen]
    · refine eq_leaf a.heap w ?_ ?_ f (n + 1) n' b h
      · rintro p q hpq
        exact hl ⟨p, q, hpq⟩
      · rintro p q hpq
        exact ht ⟨p, q, hpq⟩

theorem get_sim (c k : Val) : PSim (w.get f strtod c k) (a.get c k) := by
  unfold AWorld.get
  by_cases hk : AWorld.plainKey k
  swap
  · rw [if_neg hk]; exact .unknown
  rw [if_pos hk]
  by_cases hc : c.known = true
  · obtain ⟨es, he⟩ := Val.known.builtins hc
    obtain ⟨mt, e, hs⟩ := mtOf_spec hf he
    have hget : ∀ (tab : Option Table), vmGet f (some mt) tab k = match methodOf c k with
        | some m => some (.value m.val)
        | none => match methodOf c.proto (.str (ascii "__get")) with
          | some m => some (.callGet m.val)
          | none => match tab with
            | some t => (t.search f k).map fun (r : Val) => if r.tag ≠ Tag.end_ then GetRes.value r else GetRes.valueError
            | none => some .valueError := by
      intro tab
      rw [vmGet, lookup2, hs k hk, hs _ (plainKey_str _), methodOf_proto c (.str _)]
      cases methodOf c k with
      | some m => simp [m.val_tag]
      | none =>
        cases methodOf c.proto (.str (ascii "__get")) with
        | some m => cases tab <;> simp [m.val_tag, show Val.end_.tag = Tag.end_ from rfl]
        | none => cases tab <;> simp [Val.tag]
    have hw : w.get f strtod c k = match vmGet f (some mt) (w.tableOf c) k with
        | none => (w, .error .other)
        | some (.value v) => (w, .ok v)
        | some (.callGet m) => World.one (w.callFound f strtod m [c, k])
        | some .valueError => (w, .error .value) := by rw [World.get, e]; rfl
    rw [hw, hget]
    cases hm : methodOf c k with
    | some m => exact .mk r _
    | none =>
      dsimp only
      cases c with
      | ref kind p =>
        cases kind with
        | list =>
          rw [show methodOf (Val.ref .list p).proto (.str (ascii "__get")) = some .listGet from by show methodOf (.ref .list 0) _ = _; decide +kernel]
          dsimp only
          rw [callFound_eq (e := ("__get", .listGet, 2)) (by decide +kernel)]
          show PSim (World.one (w.checkInt k fun i => w.checkList (.ref .list p) fun _ l => w.out (listGet l i) fun v => (w, .ok [v]))) _
          rw [AWorld.onList]
          rcases hx : a.heap[p]? with _ | (xs | ⟨kvs, d⟩)
          · exact .unknown
          · obtain ⟨l, hl, hh⟩ := r.list hx
            cases k with
            | int i =>
              rw [World.checkInt, World.checkList, hl]
              show PSim _ (a.index xs i a.give)
              dsimp only
              rw [C36_get l xs hh, AWorld.index]
              cases pos xs.length i.toInt with
              | none => exact .mk r _
              | some q =>
                dsimp only
                cases xs[q]? with
                | none => exact .unknown
                | some v =>
                  show PSim _ (a.give v)
                  rw [AWorld.give]
                  by_cases hv : v = .end_
                  · rw [if_pos hv]; exact .unknown
                  · rw [if_neg hv]; exact .mk r _
            | _ => exact .mk r _
          · exact .unknown
        | table =>
          rw [show methodOf (Val.ref .table p).proto (.str (ascii "__get")) = some .tableGet from by show methodOf (.ref .table 0) _ = _; decide +kernel]
          dsimp only
          rw [callFound_eq (e := ("__get", .tableGet, 2)) (by decide +kernel)]
          show PSim (World.one (w.checkTable (.ref .table p) fun _ t => match t.get f k with
            | some v => (w, .ok [v])
            | none => (w, .error .other))) _
          rw [AWorld.onTable]
          rcases hx : a.heap[p]? with _ | (xs | ⟨kvs, d⟩)
          · exact .unknown
          · exact .unknown
          · obtain ⟨t, ht, h1, h2⟩ := r.table hx
            rw [World.checkTable, ht]
            dsimp only
            rw [Table.get, h1.search hf hk, Option.map_some]
            dsimp only
            rw [AWorld.give]
            by_cases hne : (entryAt kvs k).getD .undef = .end_
            · rw [if_pos hne]; exact .unknown
            · rw [if_neg hne, one_ok]
              have : (if (entryAt kvs k).getD Val.end_ = .end_ then Val.undef else (entryAt kvs k).getD .end_) = (entryAt kvs k).getD .undef := by
                cases hv : entryAt kvs k with
                | none => rfl
                | some v => rw [hv] at hne; simp only [Option.getD_some] at hne ⊢; rw [if_neg hne]
              rw [this]; exact .mk r _
        | _ => cases hc
      | str s =>
        rw [show methodOf (Val.str s).proto (.str (ascii "__get")) = some .strGet from by show methodOf (.str []) _ = _; decide +kernel]
        dsimp only
        rw [callFound_eq (e := ("__get", .strGet, 2)) (by decide +kernel)]
        show PSim (World.one (w.checkInt k fun i => w.out (strGet (YStr.heap s) i) fun p => w.strVal p fun b => (w, .ok [.str b]))) _
        cases k with
        | int i =>
          show PSim (World.one (w.out (strGet (YStr.heap s) i) fun p => w.strVal p fun b => (w, .ok [.str b]))) (a.index s i fun b => a.give (.str [b]))
          have h := C44_index (YStr.heap s) s (YStr.holds_heap s) i
          rw [AWorld.index, pos]
          by_cases h1 : 0 ≤ i.toInt ∧ i.toInt < s.length
          · rw [if_pos h1]
            dsimp only
            have hlt : i.toInt.toNat < s.length := by omega
            obtain ⟨q, e1, e2⟩ := h.1 i.toInt.toNat hlt (by omega)
            rw [e1, World.out, strVal_eq e2, List.getElem?_eq_getElem hlt]
            exact .mk r _
          · rw [if_neg h1]
            by_cases h2 : -(s.length : Int) ≤ i.toInt ∧ i.toInt < 0
            · rw [if_pos h2]
              dsimp only
              have hlt : (i.toInt + s.length).toNat < s.length := by omega
              obtain ⟨q, e1, e2⟩ := h.1 (i.toInt + s.length).toNat hlt (by omega)
              rw [e1, World.out, strVal_eq e2, List.getElem?_eq_getElem hlt]
              exact .mk r _
            · rw [if_neg h2, h.2 (by omega)]
              exact .mk r _
        | _ => exact .mk r _
      | end_ => cases hc
      | userptr p => cases hc
      | undef => rw [show methodOf Val.undef.proto (.str (ascii "__get")) = none from by decide +kernel]; exact .mk r _
      | bool b => rw [show methodOf (Val.bool b).proto (.str (ascii "__get")) = none from by show methodOf (.bool false) _ = _; decide +kernel]; exact .mk r _
      | int b => rw [show methodOf (Val.int b).proto (.str (ascii "__get")) = none from by show methodOf (.int 0) _ = _; decide +kernel]; exact .mk r _
      | float b => rw [show methodOf (Val.float b).proto (.str (ascii "__get")) = none from by show methodOf (.float 0) _ = _; decide +kernel]; exact .mk r _
  · have hm : methodOf c k = none := by
      have : methodsOf c = [] := by
        cases c with
        | ref kk p => cases kk <;> first | rfl | exact absurd rfl hc
        | end_ => rfl
        | userptr p => rfl
        | _ => exact absurd rfl hc
      cases k <;> first | rfl | (rw [methodOf, this]; rfl)
    rw [hm]
    cases c with
    | ref kk p => cases kk <;> first | exact .unknown | exact absurd rfl hc
    | end_ => exact .unknown
    | userptr p => exact .unknown
    | _ => exact absurd rfl hc

theorem set_sim (c k v : Val) : PSim (w.set f strtod c k v) (a.set c k v) := by
  have other : ∀ pv, c.known = true → c.proto = pv → methodOf pv (.str (ascii "__set")) = none → PSim (w.set f strtod c k v) a.typeErr := by
    intro pv hc hp hm
    rw [World.set, noMethod hf strtod w hc hp _ _ hm]; exact .mk r _
  cases c with
  | ref kind p =>
    cases kind with
    | list =>
      rw [World.set, hasMethod hf strtod w (m := .listSet) (pv := .ref .list 0) rfl rfl _ _ (by decide +kernel), callFound_eq (e := ("__set", .listSet, 3)) (by decide +kernel)]
      show PSim ((w.checkInt k fun i => w.checkList (.ref .list p) fun p l => w.out (listSet l i v) fun l => (w.put p (.list l), .ok [Val.int i])).bind _) _
      rw [AWorld.set, AWorld.onList]
      rcases hx : a.heap[p]? with _ | (xs | ⟨kvs, d⟩)
      · exact .unknown
      · obtain ⟨l, hl, hh⟩ := r.list hx
        cases k with
        | int i =>
          rw [World.checkInt, World.checkList, hl]
          dsimp only
          rw [AWorld.onInt]
          have h := C36_set l xs hh i v
          cases hp : pos xs.length i.toInt with
          | none => rw [hp] at h; rw [h]; exact .mk r _
          | some q =>
            rw [hp] at h
            obtain ⟨l', e, hl'⟩ := h
            rw [e]
            exact .inr ⟨rfl, r.putList p hl'⟩
        | _ => exact .mk r _
      · exact .unknown
    | table =>
      rw [World.set, hasMethod hf strtod w (m := .tableSet) (pv := .ref .table 0) rfl rfl _ _ (by decide +kernel), callFound_eq (e := ("__set", .tableSet, 3)) (by decide +kernel)]
      show PSim ((w.checkTable (.ref .table p) fun p' t => match t.set f k v with
        | some (.ok t) => (w.put p' (.table t), .ok [Val.ref .table p])
        | some .typeError => (w, .error .type)
        | none => (w, .error .other)).bind _) _
      rw [AWorld.set, AWorld.onTable]
      rcases hx : a.heap[p]? with _ | (xs | ⟨kvs, d⟩)
      · exact .unknown
      · exact .unknown
      · obtain ⟨t, ht, h1, h2⟩ := r.table hx
        rw [World.checkTable, ht]
        dsimp only
        by_cases hv : v = .undef
        · rw [if_pos hv, Table.set, if_pos hv]
          have := remove_sim hf r h1 h2 p k () ht
          cases hm : t.rm f k with
          | none => rw [hm] at this; exact this
          | some t' => rw [hm] at this; exact this
        rw [if_neg hv]
        by_cases hv' : v = .end_
        · rw [if_pos hv']; exact .unknown
        rw [if_neg hv', Table.set, if_neg hv]
        by_cases hk : k.hashable = false
        · rw [if_pos hk, Table.insert, if_neg (by simp [hk])]
          exact .mk r _
        rw [if_neg hk]
        by_cases hg : GoodKey k ∧ kvs.length < 2 ^ 29
        · rw [if_pos hg]
          obtain ⟨t', -, e, hr, -⟩ := h1.insert hf (show t.length < 2 ^ 29 by rw [h1.length h2]; exact hg.2) hg.1 ⟨hv, hv'⟩
          rw [e]
          refine .inr ⟨rfl, r.putTable p ?_ (putEntry_nodup h2 k v)⟩
          rw [entryAt_put]; exact hr
        · rw [if_neg hg]; exact .unknown
    | _ => exact .unknown
  | end_ => exact .unknown
  | userptr p => exact .unknown
  | undef => exact other .undef rfl rfl (by decide +kernel)
  | bool b => exact other (.bool false) rfl rfl (by decide +kernel)
  | int b => exact other (.int 0) rfl rfl (by decide +kernel)
  | float b => exact other (.float 0) rfl rfl (by decide +kernel)
  | str b => exact other (.str []) rfl rfl (by decide +kernel)

theorem unary_sim (o : UnOp) (v : Val) : PSim (w.unary f strtod o v) (a.unary o v) := by
  have other : v.known = true → o ≠ .not → (o = .len → methodOf v.proto (.str (ascii "__len")) = none) → PSim (w.unary f strtod o v) a.typeErr := by
    intro hv h1 h2
    have hm := fun h => noUnary o v.proto (proto_known hv) h h1
    cases o with
    | not => exact absurd rfl h1
    | len => rw [World.unary, noMethod hf strtod w hv rfl _ _ (h2 rfl)]; exact .mk r _
    | neg => rw [World.unary, noMethod hf strtod w hv rfl _ _ (hm (by simp))]; exact .mk r _
    | pos => rw [World.unary, noMethod hf strtod w hv rfl _ _ (hm (by simp))]; exact .mk r _
    | bnot => rw [World.unary, noMethod hf strtod w hv rfl _ _ (hm (by simp))]; exact .mk r _
  by_cases hn : o = .not
  · subst hn; cases v <;> exact .unknown
  cases v with
  | ref k p =>
    cases k with
    | list =>
      cases o with
      | not => exact absurd rfl hn
      | len =>
        rw [World.unary, hasMethod hf strtod w (m := .listLen) (pv := .ref .list 0) rfl rfl _ _ (by decide +kernel), callFound_eq (e := ("__len", .listLen, 1)) (by decide +kernel)]
        show PSim (World.one (w.checkList (.ref .list p) fun _ l => (w, .ok [.int (BitVec.ofNat 64 l.count)]))) _
        rw [AWorld.unary, AWorld.onList]
        rcases hx : a.heap[p]? with _ | (xs | ⟨kvs, d⟩)
        · exact .unknown
        · obtain ⟨l, hl, hh⟩ := r.list hx
          rw [World.checkList, hl]; dsimp only; rw [hh.count]; exact .mk r _
        · exact .unknown
      | _ => exact other rfl (by simp) (by simp)
    | table =>
      cases o with
      | not => exact absurd rfl hn
      | len =>
        rw [World.unary, hasMethod hf strtod w (m := .tableLen) (pv := .ref .table 0) rfl rfl _ _ (by decide +kernel), callFound_eq (e := ("__len", .tableLen, 1)) (by decide +kernel)]
        show PSim (World.one (w.checkTable (.ref .table p) fun _ t => (w, .ok [.int (BitVec.ofNat 64 t.length)]))) _
        rw [AWorld.unary, AWorld.onTable]
        rcases hx : a.heap[p]? with _ | (xs | ⟨kvs, d⟩)
        · exact .unknown
        · exact .unknown
        · obtain ⟨l, hl, h1, h2⟩ := r.table hx
          rw [World.checkTable, hl]; dsimp only; rw [h1.length h2]; exact .mk r _
      | _ => exact other rfl (by simp) (by simp)
    | _ => cases o <;> exact .unknown
  | end_ => cases o <;> exact .unknown
  | userptr p => cases o <;> exact .unknown
  | str s =>
    cases o with
    | not => exact absurd rfl hn
    | len =>
      rw [World.unary, hasMethod hf strtod w (m := .strLen) (pv := .str []) rfl rfl _ _ (by decide +kernel), callFound_eq (e := ("__len", .strLen, 1)) (by decide +kernel)]
      show PSim (World.one (w.checkStr (.str s) fun s => (w, .ok [.int (BitVec.ofNat 64 s.len)]))) _
      rw [AWorld.unary, World.checkStr, (YStr.holds_heap s).len]
      exact .mk r _
    | _ => exact other rfl (by simp) (by simp)
  | undef => cases o <;> first | exact absurd rfl hn | exact other rfl (by simp) (fun _ => by decide +kernel)
  | bool b => cases o <;> first | exact absurd rfl hn | exact other rfl (by simp) (fun _ => by show methodOf (.bool false) _ = _; decide +kernel)
  | int b => cases o <;> first | exact absurd rfl hn | exact other rfl (by simp) (fun _ => by show methodOf (.int 0) _ = _; decide +kernel)
  | float b => cases o <;> first | exact absurd rfl hn | exact other rfl (by simp) (fun _ => by show methodOf (.float 0) _ = _; decide +kernel)

theorem binary_sim (o : BinOp) (x y : Val) : PSim (w.binary f strtod o x y) (a.binary o x y) := by
  have none_ : x.known = true → o ≠ .cnct → o ≠ .id → methodOf x.proto (.str (ascii (World.binName o))) = none → PSim (w.binary f strtod o x y) a.typeErr := by
    intro hx h1 h2 hm
    unfold World.binary
    cases o <;> first
      | exact absurd rfl h1
      | exact absurd rfl h2
      | (dsimp only; rw [noMethod hf strtod w hx rfl _ _ hm]; exact .mk r _)
  have other : o ∉ ([.cnct, .id, .eq, .add, .bor] : List BinOp) → PSim (w.binary f strtod o x y) (match x with
      | .ref .list _ | .ref .table _ | .undef | .bool _ | .int _ | .float _ | .str _ => a.typeErr
      | _ => a.unknown) := by
    intro ho
    have h1 : o ≠ .cnct := fun e => ho (by simp [e])
    have h2 : o ≠ .id := fun e => ho (by simp [e])
    by_cases hx : x.known = true
    · have := none_ hx h1 h2 (noBinary o ho _ (proto_known hx))
      cases x with
      | ref k p => cases k <;> first | exact this | exact .unknown
      | end_ => exact .unknown
      | userptr p => exact .unknown
      | _ => exact this
    · cases x with
      | ref k p => cases k <;> first | exact absurd rfl hx | exact .unknown
      | end_ => exact .unknown
      | userptr p => exact .unknown
      | _ => exact absurd rfl hx
  cases o with
  | cnct =>
    rw [World.binary, AWorld.binary]
    exact (tostr_sim hf strtod r y).bind fun w a t r => (tostr_sim hf strtod r x).bind fun w a s r => .mk r _
  | id => exact .unknown
  | eq =>
    have : ∀ p q, x = .ref .list p → y = .ref .list q → PSim (w.binary f strtod .eq x y) (match AWorld.same a.heap 300 x y with
        | some b => (a, .ok (.bool b))
        | none => a.unknown) := by
      rintro p q rfl rfl
      cases hb : AWorld.same a.heap 300 (.ref .list p) (.ref .list q) with
      | none => exact .unknown
      | some b =>
        have e := eq_sim hf r 300 f _ _ b (by omega) hb
        rw [World.binary]
        · rw [hasMethod hf strtod w (m := .listEq) (pv := .ref .list 0) rfl rfl _ _ (by decide +kernel), callFound_eq (e := ("__eq", .listEq, 2)) (by decide +kernel)]
          show PSim (World.one (w.checkList (.ref .list q) fun _ _ => w.checkList (.ref .list p) fun _ _ => match w.eqVals f f (.ref .list p) (.ref .list q) with
            | .ok b => (w, .ok [.bool b])
            | .error e => (w, .error e))) _
          rw [AWorld.same] at hb
          rcases hx : a.heap[p]? with _ | (xs | ⟨kvs, d⟩)
          · rw [hx] at hb; cases hb
          · rcases hy : a.heap[q]? with _ | (ys | kvs)
            · rw [hx, hy] at hb; cases hb
            · obtain ⟨l, hl, -⟩ := r.list hx
              obtain ⟨l', hl', -⟩ := r.list hy
              rw [World.checkList, hl']; dsimp only
              rw [World.checkList, hl]; dsimp only
              rw [e]; exact .mk r _
            · rw [hx, hy] at hb; cases hb
          · rw [hx] at hb; cases hb
        · simp
        · simp
    have tab : ∀ p q, x = .ref .table p → y = .ref .table q → PSim (w.binary f strtod .eq x y) (match AWorld.same a.heap 300 x y with
        | some b => (a, .ok (.bool b))
        | none => a.unknown) := by
      rintro p q rfl rfl
      cases hb : AWorld.same a.heap 300 (.ref .table p) (.ref .table q) with
      | none => exact .unknown
      | some b =>
        have e := eq_sim hf r 300 f _ _ b (by omega) hb
        rw [World.binary]
        · rw [hasMethod hf strtod w (m := .tableEq) (pv := .ref .table 0) rfl rfl _ _ (by decide +kernel), callFound_eq (e := ("__eq", .tableEq, 2)) (by decide +kernel)]
          show PSim (World.one (w.checkTable (.ref .table q) fun _ _ => w.checkTable (.ref .table p) fun _ _ => match w.eqVals f f (.ref .table p) (.ref .table q) with
            | .ok b => (w, .ok [.bool b])
            | .error e => (w, .error e))) _
          rw [AWorld.same] at hb
          rcases hx : a.heap[p]? with _ | (xs | ⟨kvs, d⟩)
          · rw [hx] at hb; cases hb
          · rw [hx] at hb; cases hb
          · rcases hy : a.heap[q]? with _ | (ys | ⟨kvs, d⟩)
            · rw [hx, hy] at hb; cases hb
            · rw [hx, hy] at hb; cases hb
            · obtain ⟨l, hl, -⟩ := r.table hx
              obtain ⟨l', hl', -⟩ := r.table hy
              rw [World.checkTable, hl']; dsimp only
              rw [World.checkTable, hl]; dsimp only
              rw [e]; exact .mk r _
        · simp
        · simp
    cases x with
    | ref k p =>
      cases k with
      | list =>
        cases y with
        | ref k q =>
          cases k with
          | list => exact this _ _ rfl rfl
          | _ => exact .unknown
        | _ => exact .unknown
      | table =>
        cases y with
        | ref k q =>
          cases k with
          | table => exact tab _ _ rfl rfl
          | _ => exact .unknown
        | _ => exact .unknown
      | _ => exact .unknown
    | _ => exact .unknown
  | add =>
    cases x with
    | ref k p =>
      cases k with
      | list =>
        rw [World.binary]
        · rw [hasMethod hf strtod w (m := .listAdd) (pv := .ref .list 0) rfl rfl _ _ (by decide +kernel), callFound_eq (e := ("__add", .listAdd, 2)) (by decide +kernel)]
          show PSim (World.one (w.checkList y fun _ r => w.checkList (.ref .list p) fun _ l => w.out (listConcat l r) fun l => (w.add (.list l), .ok [.ref .list w.heap.length]))) _
          rw [AWorld.binary, AWorld.onList]
          rcases hx : a.heap[p]? with _ | (xs | ⟨kvs, d⟩)
          · exact .unknown
          · obtain ⟨l, hl, hh⟩ := r.list hx
            cases y with
            | ref k q =>
              cases k with
              | list =>
                dsimp only
                rw [AWorld.onList]
                rcases hy : a.heap[q]? with _ | (ys | kvs)
                · exact .unknown
                · obtain ⟨l', hl', hh'⟩ := r.list hy
                  rw [World.checkList, hl']; dsimp only
                  rw [World.checkList, hl]; dsimp only
                  obtain ⟨l2, e, h2⟩ := C38_concat l l' xs ys hh hh'
                  rw [e, World.out, AWorld.newList, r.length]
                  exact .inr ⟨rfl, r.addList h2⟩
                · exact .unknown
              | _ => exact .mk r _
            | _ => exact .mk r _
          · exact .unknown
        · simp
        · simp
      | table => exact none_ rfl (by simp) (by simp) (by show methodOf (.ref .table 0) _ = _; decide +kernel)
      | _ => exact .unknown
    | end_ => exact .unknown
    | userptr p => exact .unknown
    | undef => exact none_ rfl (by simp) (by simp) (by decide +kernel)
    | bool b => exact none_ rfl (by simp) (by simp) (by show methodOf (.bool false) _ = _; decide +kernel)
    | int b => exact none_ rfl (by simp) (by simp) (by show methodOf (.int 0) _ = _; decide +kernel)
    | float b => exact none_ rfl (by simp) (by simp) (by show methodOf (.float 0) _ = _; decide +kernel)
    | str b => exact none_ rfl (by simp) (by simp) (by show methodOf (.str []) _ = _; decide +kernel)
  | bor =>
    cases x with
    | ref k p =>
      cases k with
      | table =>
        rw [World.binary]
        · rw [hasMethod hf strtod w (m := .tableBor) (pv := .ref .table 0) rfl rfl _ _ (by decide +kernel), callFound_eq (e := ("__bor", .tableBor, 2)) (by decide +kernel)]
          show PSim (World.one (w.checkTable y _)) _
          have tt : PSim (World.one ((w, .error .type) : PRes World (List Val))) (a.onTable (.ref .table p) fun _ _ _ => a.typeErr) := by
            rw [AWorld.onTable]
            rcases hx : a.heap[p]? with _ | (xs | ⟨kvs, d⟩)
            · exact .unknown
            · exact .unknown
            · exact .mk r _
          cases y with
          | ref k q =>
            cases k <;> first | exact tt | skip
            show PSim (World.one (w.checkTable (.ref .table q) fun _ y => w.checkTable (.ref .table p) fun _ x => match x.union f y with
              | some t => (w.add (.table t), .ok [.ref .table w.heap.length])
              | none => (w, .error .other))) (a.onTable (.ref .table q) fun _ ys _ => a.onTable (.ref .table p) fun _ xs _ =>
              if xs.length + ys.length ≤ 2 ^ 29 then (a.add (.table (unionOf xs ys) 0), .ok (.ref .table a.heap.length)) else a.unknown)
            rw [AWorld.onTable]
            rcases hy : a.heap[q]? with _ | (ys | ⟨ys, d⟩)
            · exact .unknown
            · exact .unknown
            · obtain ⟨ty, hty, h1, h2⟩ := r.table hy
              dsimp only
              rw [World.checkTable, hty, AWorld.onTable]
              dsimp only
              rcases hx : a.heap[p]? with _ | (xs | ⟨xs, d⟩)
              · exact .unknown
              · exact .unknown
              · obtain ⟨tx, htx, h3, h4⟩ := r.table hx
                rw [World.checkTable, htx]
                dsimp only
                by_cases hl : xs.length + ys.length ≤ 2 ^ 29
                · rw [if_pos hl]
                  obtain ⟨t, e, ht⟩ := h3.union hf h1 (show tx.length + ty.length ≤ 2 ^ 29 by rw [h3.length h4, h1.length h2]; exact hl)
                  rw [e, r.length]
                  refine .inr ⟨rfl, r.addTable ?_ (union_nodup h4 h2)⟩
                  rw [entryAt_union]; exact ht
                · rw [if_neg hl]; exact .unknown
          | _ => exact tt
        · simp
        · simp
      | list => exact none_ rfl (by simp) (by simp) (by show methodOf (.ref .list 0) _ = _; decide +kernel)
      | _ => exact .unknown
    | end_ => exact .unknown
    | userptr p => exact .unknown
    | undef => exact none_ rfl (by simp) (by simp) (by decide +kernel)
    | bool b => exact none_ rfl (by simp) (by simp) (by show methodOf (.bool false) _ = _; decide +kernel)
    | int b => exact none_ rfl (by simp) (by simp) (by show methodOf (.int 0) _ = _; decide +kernel)
    | float b => exact none_ rfl (by simp) (by simp) (by show methodOf (.float 0) _ = _; decide +kernel)
    | str b => exact none_ rfl (by simp) (by simp) (by show methodOf (.str []) _ = _; decide +kernel)
  | _ =>
    have := other (by simp)
    cases x with
    | ref k p => cases k <;> exact this
    | _ => exact this

omit r in
theorem insertPairs_sim : ∀ (es : List (Val × Val)) (t : Table) (kvs : List (Val × Val)), kvs.length + es.length ≤ 2 ^ 29 → TRep 0 t (entryAt kvs) →
    (kvs.map Prod.fst).Nodup → match AWorld.putAll es kvs with
      | .ok kvs' => ∃ t', World.insertPairs f es t = .ok t' ∧ TRep 0 t' (entryAt kvs') ∧ (kvs'.map Prod.fst).Nodup
      | .error e => e = .other ∨ World.insertPairs f es t = .error e
  | [], t, kvs, hn, h1, h2 => ⟨t, rfl, h1, h2⟩
  | (k, v) :: es, t, kvs, hn, h1, h2 => by
    simp only [List.length_cons] at hn
    rw [AWorld.putAll, World.insertPairs]
    by_cases hv : v = .undef
    · rw [if_pos hv, if_pos (by rw [hv]; rfl)]
      exact insertPairs_sim es t kvs (by omega) h1 h2
    · rw [if_neg hv, if_neg (show ¬ v.tag = .undef by cases v <;> first | exact absurd rfl hv | simp [Val.tag])]
      by_cases hv' : v = .end_
      · rw [if_pos hv']; exact .inl rfl
      rw [if_neg hv']
      by_cases hk : k.hashable = false
      · rw [if_pos hk, Table.insert, if_neg (by simp [hk])]
        exact .inr rfl
      rw [if_neg hk]
      by_cases hg : GoodKey k
      · rw [if_pos hg]
        obtain ⟨t', -, e, hr, -⟩ := h1.insert hf (show t.length < 2 ^ 29 by rw [h1.length h2]; omega) hg ⟨hv, hv'⟩
        rw [e]
        dsimp only
        rw [← entryAt_put] at hr
        refine insertPairs_sim es t' _ ?_ hr (putEntry_nodup h2 k v)
        have : (putEntry kvs k v).length ≤ kvs.length + 1 := by
          rw [putEntry, List.length_cons]; have := List.length_filter_le (fun p : Val × Val => decide (p.1 ≠ k)) kvs; omega
        omega
      · rw [if_neg hg]; exact .inl rfl

theorem newTable_sim (es : List (Val × Val)) : PSim (w.newTable f es) (a.newTable es) := by
  rw [AWorld.newTable]
  split
  · rename_i hn
    have h := insertPairs_sim hf es.reverse Table.new [] (by simpa using hn) TRep.new (by simp)
    rw [World.newTable]
    cases hp : AWorld.putAll es.reverse [] with
    | error e =>
      rw [hp] at h
      rcases h with h | h
      · exact .inl (by rw [h])
      · rw [h]; exact .mk r _
    | ok kvs =>
      rw [hp] at h
      obtain ⟨t, e, h1, h2⟩ := h
      rw [e, r.length]
      exact .inr ⟨rfl, r.addTable h1 h2⟩
  · exact .unknown

end
/-! ## No sentinel, and the operations together -/

theorem PSim.noEnd {r : PRes World Val} {r' : PRes AWorld Val} (h : PSim r r') (hv : ∀ v, r'.2 = .ok v → v ≠ .end_) : PSim (World.noEnd r) r' := by
  obtain ⟨w, e⟩ := r
  rcases h with h | ⟨h1, h2⟩
  · exact .inl h
  · refine .inr ?_
    dsimp only at h1 h2
    subst h1
    cases he : r'.2 with
    | error e => exact ⟨rfl, h2⟩
    | ok v =>
      have := hv v he
      refine ⟨?_, ?_⟩ <;> simp only [World.noEnd, PRes.bind, if_neg this]
      exact h2

/-- No value is the sentinel. -/
def AWorld.Fine {α : Type} (p : α → Prop) (r : PRes AWorld α) : Prop := ∀ v, r.2 = .ok v → p v

theorem AWorld.Fine.err {α : Type} {p : α → Prop} {a : AWorld} {e : RtErr} : AWorld.Fine p ((a, .error e) : PRes AWorld α) := fun _ h => by cases h

theorem AWorld.Fine.ok {α : Type} {p : α → Prop} {a : AWorld} {v : α} (h : p v) : AWorld.Fine p ((a, .ok v) : PRes AWorld α) := fun _ e => by cases e; exact h

theorem AWorld.Fine.bind {α β : Type} {p : β → Prop} {r : PRes AWorld α} {k : AWorld → α → PRes AWorld β} (h : ∀ a x, AWorld.Fine p (k a x)) : AWorld.Fine p (r.bind k) := by
  obtain ⟨a, e⟩ := r
  cases e with
  | error e => exact .err
  | ok x => exact h a x

section
variable {α : Type} {p : α → Prop} {a : AWorld} {v : Val}

theorem AWorld.Fine.onList {k : Nat → List Val → PRes AWorld α} (h : ∀ q xs, v = .ref .list q → AWorld.Fine p (k q xs)) : AWorld.Fine p (a.onList v k) := by
  unfold AWorld.onList
  split
  · split
    · exact h _ _ rfl
    · exact .err
  · exact .err

theorem AWorld.Fine.onTable {k : Nat → List (Val × Val) → Nat → PRes AWorld α} (h : ∀ q xs d, v = .ref .table q → AWorld.Fine p (k q xs d)) : AWorld.Fine p (a.onTable v k) := by
  unfold AWorld.onTable
  split
  · split
    · exact h _ _ _ rfl
    · exact .err
  · exact .err

theorem AWorld.Fine.onInt {k : BitVec 64 → PRes AWorld α} (h : ∀ i, AWorld.Fine p (k i)) : AWorld.Fine p (a.onInt v k) := by
  unfold AWorld.onInt
  split
  · exact h _
  · exact .err

theorem AWorld.Fine.onStr {k : List Byte → PRes AWorld α} (h : ∀ i, AWorld.Fine p (k i)) : AWorld.Fine p (a.onStr v k) := by
  unfold AWorld.onStr
  split
  · exact h _
  · exact .err

theorem AWorld.Fine.small {s t : List Byte} {q : List Val → Prop} {r : PRes AWorld (List Val)} (h : AWorld.Fine q r) : AWorld.Fine q (a.small s t r) := by
  unfold AWorld.small
  split
  · exact h
  · exact .err

theorem AWorld.Fine.ite {c : Prop} [Decidable c] {x y : PRes AWorld α} (h : AWorld.Fine p x) (h' : AWorld.Fine p y) : AWorld.Fine p (if c then x else y) := by
  split
  · exact h
  · exact h'

theorem AWorld.Fine.give : AWorld.Fine (· ≠ .end_) (a.give v) := by
  unfold AWorld.give
  split
  · exact .err
  · exact .ok ‹_›
end

theorem AWorld.call_fine (a : AWorld) (m : Meth) (x : Nat → Val) : AWorld.Fine (fun vs => .end_ ∉ vs) (a.call m x) := by
  unfold AWorld.call
  split
  all_goals first
    | exact .err
    | (refine .onInt fun i => ?_; exact .ok (by simp); done)
    | (refine .onStr fun i => ?_; exact .ok (by simp); done)
    | (refine .onTable fun _ _ _ _ => ?_; exact .ok (by simp); done)
    | skip
  · split
    · exact .bind fun _ _ => .ok (by simp)
    · exact .err
  · split
    · exact .bind fun _ _ => .ok (by simp)
    · exact .err
  · split
    · exact .bind fun _ _ => .ok (by simp)
    · exact .err
  · split
    · exact .bind fun _ _ => .ok (by simp)
    · exact .err
  · split
    · exact .bind fun _ _ => .ok (by simp)
    · exact .err
  · split
    · exact .ok (by simp)
    · exact .err
  · split
    · rename_i h
      refine .ok ?_
      cases hx : x 0 <;> rw [hx] at h <;> first | (simp; done) | (exact absurd h (by decide))
    · exact .err
  · split
    · exact .ok (by simp)
    · exact .err
  · split
    · exact .ok (by simp)
    · exact .err
  · split
    · split
      · exact .ok (by simp)
      · exact .err
    · exact .err
  · refine .onStr fun i => ?_
    split
    · exact .ok (by simp)
    · exact .err
  · exact .onStr fun _ => .onStr fun _ => .ok (by simp)
  · exact .onStr fun _ => .onStr fun _ => .ok (by simp)
  · refine .onStr fun _ => .onStr fun _ => .ok ?_
    split <;> simp
  · refine .onInt fun _ => .onStr fun _ => ?_
    split
    · exact .err
    · split
      · exact .ok (by simp)
      · exact .err
  · split
    · exact .onStr fun _ => .ite (.ok (by simp)) .err
    · exact .onStr fun _ => .onStr fun _ => .small (.ok (by simp))
  · split
    · exact .onStr fun _ => .ok (by simp)
    · exact .onStr fun _ => .onStr fun _ => .small (.ok (by simp))
  · split
    · exact .onStr fun _ => .ite (.ok (by simp)) .err
    · exact .onStr fun _ => .onStr fun _ => .ite (.small (.ok (by simp))) .err
  · exact .onStr fun _ => .ite (.ok (by simp)) .err
  · exact .onStr fun _ => .ite (.ok (by simp)) .err
  · exact .onStr fun _ => .ite (.ok (by simp)) .err
  · exact .onStr fun _ => .onStr fun _ => .small (.ok (by simp))
  · split
    · exact .onStr fun _ => .onStr fun _ => .onStr fun _ => .ite .err (.small (.ok (by simp)))
    · exact .onInt fun _ => .onStr fun _ => .onStr fun _ => .onStr fun _ => .ite .err (.ite (.small (.ok (by simp))) (.ite (.small (.ok (by simp))) .err))
  · split
    · exact .onStr fun _ => .ite (.ok (by simp)) .err
    · exact .onStr fun _ => .onStr fun _ => .ite .err (.ite (.ok (by simp)) .err)
  · refine .onStr fun _ => .onList fun _ _ _ => ?_
    split
    · exact .ite (.ok (by simp)) .err
    · exact .err
  · exact .onList fun _ _ h => .ok (by simp)
  · refine .onTable fun _ _ _ h => ?_
    unfold AWorld.remove
    exact .ite (.ok (by rw [h]; simp)) (.ite (.ok (by rw [h]; simp)) .err)
  · exact .onList fun _ _ h => .ok (by rw [h]; simp)
  · refine .onList fun _ _ h => ?_
    split
    · exact .err
    · split
      · exact .err
      · exact .ok (by simpa using fun e => ‹¬ _› e.symm)
  · refine .onInt fun _ => .onList fun _ _ h => ?_
    split
    · exact .ok (by rw [h]; simp)
    · exact .err
  · exact .onList fun _ _ h => .ok (by simp)
  · exact .onList fun _ _ h => .ok (by simp)
  · refine .onList fun _ _ h => ?_
    exact .ok (by simp)
  · exact .onList fun _ _ h => .ok (by simp)
  · refine .onList fun _ _ h => .ok ?_
    unfold AWorld.lastAt
    split <;> simp
  · refine .onList fun _ xs h => ?_
    split
    · exact .err
    · rename_i hn
      refine .ok fun hm => hn ?_
      simp only [List.any_eq_true, decide_eq_true_eq]
      exact ⟨_, hm, rfl⟩
  · exact .onList fun _ _ h => .bind fun _ _ => .ok (by simp)

theorem AWorld.get_fine (a : AWorld) (c k : Val) : AWorld.Fine (· ≠ .end_) (a.get c k) := by
  have hm : ∀ m : Meth, m.val ≠ .end_ := fun m => by simp [Meth.val]
  unfold AWorld.get
  split
  · split
    · exact .ok (hm _)
    · split
      · refine .onList fun _ _ _ => .onInt fun _ => ?_
        unfold AWorld.index
        split
        · split
          · exact .give
          · exact .err
        · exact .err
      · exact .onTable fun _ _ _ _ => .give
      · refine .onInt fun _ => ?_
        unfold AWorld.index
        split
        · split
          · exact .give
          · exact .err
        · exact .err
      all_goals exact .err
  · exact .err

theorem AWorld.binary_fine (a : AWorld) (o : BinOp) (x y : Val) : AWorld.Fine (· ≠ .end_) (a.binary o x y) := by
  unfold AWorld.binary
  split
  · exact .bind fun _ _ => .bind fun _ _ => .ok (by simp)
  · split
    · split
      · exact .ok (by simp)
      · exact .err
    · split
      · exact .ok (by simp)
      · exact .err
    · exact .err
  · split <;> first
      | exact .err
      | exact .onList fun _ _ _ => .onList fun _ _ _ => .ok (by simp)
  · split
    · split
      · exact .onTable fun _ _ _ _ => .onTable fun _ _ _ _ => .ite (.ok (by simp)) .err
      · exact .onTable fun _ _ _ _ => .err
    all_goals exact .err
  · exact .err
  · split <;> exact .err

theorem AWorld.unary_fine (a : AWorld) (o : UnOp) (x : Val) : AWorld.Fine (· ≠ .end_) (a.unary o x) := by
  unfold AWorld.unary
  split <;> first
    | exact .err
    | exact .onList fun _ _ _ => .ok (by simp)
    | exact .onTable fun _ _ _ _ => .ok (by simp)
    | exact .ok (by simp)

theorem AWorld.slice_fine (a : AWorld) (c x y : Val) : AWorld.Fine (· ≠ .end_) (a.slice c x y) := by
  unfold AWorld.slice
  split
  · exact .err
  · refine .onList fun _ _ _ => ?_
    split
    · exact .ok (by simp)
    · exact .err

theorem AWorld.next_fine (a : AWorld) (c : Val) (i : Nat) : AWorld.Fine (fun r => ∀ v j, r = some (v, j) → v ≠ .end_) (a.next c i) := by
  unfold AWorld.next
  split
  · refine .onList fun _ _ _ => ?_
    split
    · split
      · exact .err
      · rename_i h
        refine .ok ?_
        rintro v j e; cases e; exact h
    · exact .ok (by simp)
  all_goals exact .err

/-- The operations agree with their specification. -/
structure PrimSim (P : Prims World) (A : Prims AWorld) : Prop where
  binary : ∀ w a o x y, WRep w a → PSim (P.binary w o x y) (A.binary a o x y)
  unary : ∀ w a o x, WRep w a → PSim (P.unary w o x) (A.unary a o x)
  newList : ∀ w a vs, WRep w a → PSim (P.newList w vs) (A.newList a vs)
  newTable : ∀ w a vs, WRep w a → PSim (P.newTable w vs) (A.newTable a vs)
  get : ∀ w a x y, WRep w a → PSim (P.get w x y) (A.get a x y)
  slice : ∀ w a x y z, WRep w a → PSim (P.slice w x y z) (A.slice a x y z)
  set : ∀ w a x y z, WRep w a → PSim (P.set w x y z) (A.set a x y z)
  tostr : ∀ w a x, WRep w a → PSim (P.tostr w x) (A.tostr a x)
  next : ∀ w a x i, WRep w a → PSim (P.next w x i) (A.next a x i)

theorem prims_sim {f : Nat} (hf : 2 ^ 33 ≤ f) (strtod : List Byte → BitVec 64) : PrimSim (World.prims f strtod) AWorld.prims where
  binary _ a o x y r := (binary_sim hf strtod r o x y).noEnd (a.binary_fine o x y)
  unary _ a o x r := (unary_sim hf strtod r o x).noEnd (a.unary_fine o x)
  newList _ _ vs r := newList_sim r vs
  newTable _ _ vs r := newTable_sim hf r vs
  get _ a x y r := (get_sim hf strtod r x y).noEnd (a.get_fine x y)
  slice _ a x y z r := (slice_sim r x y z).noEnd (a.slice_fine x y z)
  set _ _ x y z r := set_sim hf strtod r x y z
  tostr _ _ x r := tostr_sim hf strtod r x
  next w a x i r := by
    have h := next_sim r x i
    have hn := a.next_fine x i
    show PSim ((w.next x i).bind _) (a.next x i)
    generalize w.next x i = q at h
    obtain ⟨w', e⟩ := q
    rcases h with h | ⟨h1, h2⟩
    · exact .inl h
    · refine .inr ?_
      dsimp only at h1 h2
      subst h1
      cases he : (a.next x i).2 with
      | error e => exact ⟨rfl, h2⟩
      | ok v =>
        cases v with
        | none => exact ⟨rfl, h2⟩
        | some p =>
          obtain ⟨v, j⟩ := p
          have := hn _ he v j rfl
          refine ⟨?_, ?_⟩ <;> simp only [PRes.bind, if_neg this]
          exact h2

theorem calls_sim {f : Nat} (hf : 2 ^ 33 ≤ f) (strtod : List Byte → BitVec 64) {w : World} {a : AWorld} (r : WRep w a) (fn : Val) (args : List Val) :
    PSim (w.calls f strtod fn args) (a.calls fn args) := by
  have h := callAny_sim hf strtod r fn args
  have hn : AWorld.Fine (fun vs => .end_ ∉ vs) (a.calls fn args) := by
    unfold AWorld.calls
    split
    · exact AWorld.call_fine _ _ _
    · exact .err
  rw [World.calls]
  generalize w.callFound f strtod fn args = q at h
  obtain ⟨w', e⟩ := q
  rcases h with h | ⟨h1, h2⟩
  · exact .inl h
  · refine .inr ?_
    dsimp only at h1 h2
    subst h1
    cases he : (a.calls fn args).2 with
    | error e => exact ⟨rfl, h2⟩
    | ok vs =>
      have := hn _ he
      refine ⟨?_, ?_⟩ <;> simp only [PRes.bind, if_neg this]
      exact h2

theorem noEnd_ne {r : PRes World Val} {w : World} {v : Val} (h : World.noEnd r = (w, .ok v)) : v ≠ .end_ := by
  obtain ⟨w', e⟩ := r
  cases e with
  | error e => cases h
  | ok u =>
    rw [World.noEnd, PRes.bind] at h
    split at h
    · cases h
    · cases h; assumption

theorem prims_noEnd (f : Nat) (strtod : List Byte → BitVec 64) : (World.prims f strtod).NoEnd where
  binary _ _ _ _ _ _ h := noEnd_ne h
  unary _ _ _ _ _ h := noEnd_ne h
  newList w vs w' v h := by
    have h : w.newList vs = (w', .ok v) := h
    rw [World.newList] at h
    cases hl : YList.new.appendAll vs <;> rw [hl] at h <;> cases h
    simp
  newTable w vs w' v h := by
    have h : w.newTable f vs = (w', .ok v) := h
    rw [World.newTable] at h
    split at h <;> cases h
    simp
  get _ _ _ _ _ h := noEnd_ne h
  slice _ _ _ _ _ _ h := noEnd_ne h
  next w c i w' v j h := by
    have h : (w.next c i).bind _ = (w', .ok (some (v, j))) := h
    obtain ⟨w1, x, h1, h2⟩ := PRes.bind_eq_ok h
    cases x with
    | none => cases h2
    | some p =>
      obtain ⟨u, k⟩ := p
      dsimp only at h2
      split at h2
      · cases h2
      · cases h2; assumption

theorem calls_noEnd (f : Nat) (strtod : List Byte → BitVec 64) (w : World) (v : Val) (args : List Val) (w' : World) (rs : List Val)
    (h : w.calls f strtod v args = (w', .ok rs)) : ∀ u ∈ rs, u ≠ Val.end_ := by
  rw [World.calls] at h
  obtain ⟨w1, x, h1, h2⟩ := PRes.bind_eq_ok h
  split at h2
  · cases h2
  · cases h2
    intro u hu e
    subst e
    contradiction

end Yasl
