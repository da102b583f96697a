import Verif.Props.Table
import Verif.Props.Str
import Verif.Model.Iter
set_option autoImplicit false
/-!
# C66 — for-loops

The body of the loop is any function on the state of the program, so it may change the collection.
-/
namespace Yasl

/-- the state after the loop variable has taken the values `es` -/
def afterAll {W : Type} (body : Elem → W → W) (w : W) (es : List Elem) : W := es.foldl (fun w e => body e w) w

theorem Run.bind_ok_inv {α β : Type} {x : Run α} {g : α → β} {r : β} (h : Run.bind x (fun a => some (.ok (g a))) = some (.ok r)) :
    ∃ a, x = some (.ok a) ∧ r = g a := by
  rcases x with _ | x
  · simp [Run.bind] at h
  · cases x <;> simp [Run.bind] at h
    exact ⟨_, rfl, h.symm⟩

theorem forEach_list {W : Type} (lst : W → List Val) (body : Elem → W → W) : ∀ (f iter : Nat) (w : W) (es : List Elem) (w' : W),
    forEach (fun w => .list (lst w)) body f iter w = some (.ok (es, w')) →
    w' = afterAll body w es ∧ (lst w').length ≤ iter + es.length ∧
    ∀ i, i < es.length → es[i]? = ((lst (afterAll body w (es.take i)))[iter + i]?).map .val
  | 0, _, _, _, _, h => by simp [forEach] at h
  | f + 1, iter, w, es, w', h => by
    simp only [forEach, iter1] at h
    rcases ho : (lst w)[iter]? with _ | v
    · rw [ho] at h
      simp only [Option.some.injEq, Out.ok.injEq, Prod.mk.injEq] at h
      obtain ⟨rfl, rfl⟩ := h
      refine ⟨rfl, ?_, by simp⟩
      have := List.getElem?_eq_none_iff.1 ho
      simpa using this
    · rw [ho] at h
      simp only at h
      obtain ⟨⟨es', w''⟩, h1, h2⟩ := Run.bind_ok_inv h
      cases h2
      obtain ⟨i1, i2, i3⟩ := forEach_list lst body f (iter + 1) _ _ _ h1
      refine ⟨i1, by simp only [List.length_cons]; omega, fun i hi => ?_⟩
      cases i with
      | zero => simp [afterAll, ho]
      | succ i =>
        have := i3 i (by simpa using hi)
        simp only [List.getElem?_cons_succ, List.take_succ_cons]
        rw [this]
        have e : iter + 1 + i = iter + (i + 1) := by omega
        rw [e]; rfl

/-- C66, lists, for any body — also one that changes the list: the i-th value of the loop variable is the element that is at index i when the
i-th round begins, and the loop ends when the list has no more elements than there were rounds. -/
theorem C66_list_any_body {W : Type} (lst : W → List Val) (body : Elem → W → W) (f : Nat) (w w' : W) (es : List Elem)
    (h : forEach (fun w => .list (lst w)) body f 0 w = some (.ok (es, w'))) :
    w' = afterAll body w es ∧ (lst w').length ≤ es.length ∧
    ∀ i, i < es.length → es[i]? = ((lst (afterAll body w (es.take i)))[i]?).map .val := by
  simpa using forEach_list lst body f 0 w es w' h

theorem forEach_list_total {W : Type} (lst : W → List Val) (body : Elem → W → W) (hb : ∀ e w, lst (body e w) = lst w) :
    ∀ (f iter : Nat) (w : W), iter ≤ (lst w).length → (lst w).length - iter < f →
    forEach (fun w => .list (lst w)) body f iter w =
      some (.ok (((lst w).drop iter).map .val, afterAll body w (((lst w).drop iter).map .val)))
  | 0, _, _, _, hf => by omega
  | f + 1, iter, w, hi, hf => by
    by_cases he : iter = (lst w).length
    · subst he
      simp [forEach, iter1, afterAll]
    · have hlt : iter < (lst w).length := by omega
      have hg : (lst w)[iter]? = some (lst w)[iter] := List.getElem?_eq_getElem hlt
      have hr := forEach_list_total lst body hb f (iter + 1) (body (.val (lst w)[iter]) w) (by rw [hb]; omega) (by rw [hb]; omega)
      rw [hb] at hr
      simp only [forEach, iter1, hg]
      rw [hr, List.drop_eq_getElem_cons hlt]
      rfl

/-- C66, lists: a loop whose body leaves the list alone visits every element once, in the order of the indices, and ends. -/
theorem C66_list {W : Type} (lst : W → List Val) (body : Elem → W → W) (hb : ∀ e w, lst (body e w) = lst w) (w : W) (f : Nat)
    (hf : (lst w).length < f) :
    forEach (fun w => .list (lst w)) body f 0 w = some (.ok ((lst w).map .val, afterAll body w ((lst w).map .val))) := by
  simpa using forEach_list_total lst body hb f 0 w (by omega) (by omega)

/-- a loop that collects the list's elements in reverse, and one that appends to its own list twice -/
example : forEach (W := List Val × List Elem) (fun w => .list w.1) (fun e w => (w.1, e :: w.2)) 9 0 ([.int 5, .bool true, .int 5], []) =
    some (.ok ([.val (.int 5), .val (.bool true), .val (.int 5)],
      ([.int 5, .bool true, .int 5], [.val (.int 5), .val (.bool true), .val (.int 5)]))) := by decide
example : forEach (W := List Val) (fun w => .list w) (fun _ w => if w.length < 4 then w ++ [.int 9] else w) 9 0 [.int 1, .int 2] =
    some (.ok ([.val (.int 1), .val (.int 2), .val (.int 9), .val (.int 9)], [.int 1, .int 2, .int 9, .int 9])) := by decide

/-! ## Strings -/

theorem forEach_str_total {W : Type} (str : W → YStr) (body : Elem → W → W) (hb : ∀ e w, str (body e w) = str w) (bs : List Byte) :
    ∀ (f iter : Nat) (w : W), (str w).Holds bs → (str w).start = 0 → iter ≤ bs.length → bs.length - iter < f →
    ∃ ps : List YStr, forEach (fun w => .str (str w)) body f iter w = some (.ok (ps.map .str, afterAll body w (ps.map .str))) ∧
      List.Forall₂ (fun p b => YStr.Holds p [b]) ps (bs.drop iter)
  | 0, _, _, _, _, _, hf => by omega
  | f + 1, iter, w, hs, h0, hi, hf => by
    by_cases he : iter = bs.length
    · subst he
      refine ⟨[], ?_, by simp⟩
      simp [forEach, iter1, hs.len, afterAll]
    · have hlt : iter < bs.length := by omega
      obtain ⟨p, hp, hh⟩ := hs.piece (a := iter) (b := iter + 1) (by omega) (by omega)
      rw [h0] at hp
      have hp' : (str w).substring (iter : Int) ((iter : Int) + 1) = .ok p := by
        simpa using hp
      have hh' : p.Holds [bs[iter]] := by
        have e : (bs.drop iter).take (iter + 1 - iter) = [bs[iter]] := by
          have : iter + 1 - iter = 1 := by omega
          rw [this, List.drop_eq_getElem_cons hlt]; rfl
        rwa [e] at hh
      have hlen : ¬ (str w).len ≤ iter := by rw [hs.len]; omega
      obtain ⟨ps, h1, h2⟩ := forEach_str_total str body hb bs f (iter + 1) (body (.str p) w) (by rw [hb]; exact hs) (by rw [hb]; exact h0)
        (by omega) (by omega)
      refine ⟨p :: ps, ?_, ?_⟩
      · simp only [forEach, iter1, if_neg hlen, hp']
        rw [h1]; rfl
      · rw [List.drop_eq_getElem_cons hlt]
        exact .cons hh' h2

/-- C66, strings that start at the beginning of their block of memory (literals, and every string on the heap): a loop visits the bytes in order, each
as a string of one byte.
Missing from the full property: strings that are a part of a literal, where it is false (`C66_string_part_wrong`). -/
theorem C66_string_partial {W : Type} (str : W → YStr) (body : Elem → W → W) (hb : ∀ e w, str (body e w) = str w) (bs : List Byte) (w : W)
    (hs : (str w).Holds bs) (h0 : (str w).start = 0) (f : Nat) (hf : bs.length < f) :
    ∃ ps : List YStr, forEach (fun w => .str (str w)) body f 0 w = some (.ok (ps.map .str, afterAll body w (ps.map .str))) ∧
      List.Forall₂ (fun p b => YStr.Holds p [b]) ps bs := by
  simpa using forEach_str_total str body hb bs f 0 w hs h0 (by omega) (by omega)

example (bs : List Byte) : (YStr.heap bs).Holds bs ∧ (YStr.heap bs).start = 0 := ⟨YStr.holds_heap bs, rfl⟩
example (bs : List Byte) : (YStr.lit bs).Holds bs ∧ (YStr.lit bs).start = 0 := ⟨YStr.holds_lit bs, rfl⟩

/-- C66 fails for a part of a literal: `'  ab'->ltrim()` is "ab", and a loop over it visits the two spaces. -/
theorem C66_string_part_wrong :
    ∃ s, strLtrimWs 9 (YStr.lit [32, 32, 97, 98]) = some (.ok s) ∧ s.Holds [97, 98] ∧
    ∃ p q, forEach (W := Unit) (fun _ => .str s) (fun _ w => w) 9 0 () = some (.ok ([.str p, .str q], ())) ∧ p.Holds [32] ∧ q.Holds [32] := by
  refine ⟨⟨[32, 32, 97, 98], 2, 4, false⟩, by decide, ⟨by decide, by decide, by decide, by decide⟩, ⟨[32, 32, 97, 98], 0, 1, false⟩, ⟨[32, 32, 97, 98], 1, 2, false⟩,
    by decide, ⟨by decide, by decide, by decide, by decide⟩, ⟨by decide, by decide, by decide, by decide⟩⟩

/-! ## Tables -/

theorem TInv.free_iff {t : Table} (h : TInv t) {it : Item} (hm : it ∈ t.items) : it.free = !it.live := by
  rcases h.pair it hm with rfl | rfl | ⟨hk, hv⟩
  · rfl
  · rfl
  · have h1 : it.free = false := by
      cases hkk : it.key <;> rw [hkk] at hk <;> simp [GoodKey] at hk <;> simp [Item.free, hkk, Val.tag]
    have h2 : it.live = true := by
      have ht : it.value.tag ≠ .undef := by
        intro ht
        cases hvv : it.value <;> simp [hvv, Val.tag] at ht
        exact hv.1 hvv
      have hk' : it.key.tag ≠ .end_ := by
        cases hkk : it.key <;> rw [hkk] at hk <;> simp [GoodKey] at hk <;> simp [Val.tag]
      simp [Item.live, ht, hk']
    rw [h1, h2]; rfl

/-- the loop over free slots stops at the first entry -/
theorem skipFree_spec {t : Table} (h : TInv t) : ∀ (n iter : Nat), n = t.size - iter → iter ≤ t.size →
    (skipFree t.items n iter = t.size ∧ (t.items.drop iter).filter Item.live = []) ∨
    (∃ it, iter ≤ skipFree t.items n iter ∧ skipFree t.items n iter < t.size ∧ t.items[skipFree t.items n iter]? = some it ∧
      (t.items.drop iter).filter Item.live = it :: (t.items.drop (skipFree t.items n iter + 1)).filter Item.live)
  | 0, iter, hn, hi => by
    have he : iter = t.size := by omega
    refine .inl ⟨by simp [skipFree, he], ?_⟩
    rw [List.drop_eq_nil_of_le (by rw [h.len]; omega)]; rfl
  | n + 1, iter, hn, hi => by
    have hlt : iter < t.items.length := by rw [h.len]; omega
    have hg : t.items[iter]? = some t.items[iter] := List.getElem?_eq_getElem hlt
    have hm : t.items[iter] ∈ t.items := List.getElem_mem hlt
    have hf := h.free_iff hm
    have hd := List.drop_eq_getElem_cons hlt
    cases hl : t.items[iter].live with
    | true =>
      have hs : skipFree t.items (n + 1) iter = iter := by simp [skipFree, hg, hf, hl]
      refine .inr ⟨t.items[iter], by omega, by rw [hs]; omega, by rw [hs]; exact hg, ?_⟩
      rw [hs, hd, List.filter_cons_of_pos hl]
    | false =>
      have hs : skipFree t.items (n + 1) iter = skipFree t.items n (iter + 1) := by simp [skipFree, hg, hf, hl]
      have hd' : (t.items.drop iter).filter Item.live = (t.items.drop (iter + 1)).filter Item.live := by
        rw [hd, List.filter_cons_of_neg (by simp [hl])]
      rcases skipFree_spec h n (iter + 1) (by omega) (by rw [← h.len]; omega) with ⟨h1, h2⟩ | ⟨it, h1, h2, h3, h4⟩
      · exact .inl ⟨by rw [hs, h1], by rw [hd', h2]⟩
      · exact .inr ⟨it, by rw [hs]; omega, by rw [hs]; exact h2, by rw [hs]; exact h3, by rw [hs, hd', h4]⟩

theorem forEach_table_total {W : Type} (tab : W → Table) (body : Elem → W → W) (hb : ∀ e w, tab (body e w) = tab w) :
    ∀ (f iter : Nat) (w : W), TInv (tab w) → iter ≤ (tab w).size → (tab w).size - iter < f →
    forEach (fun w => .table (tab w)) body f iter w =
      some (.ok ((((tab w).items.drop iter).filter Item.live).map (fun it => .val it.key),
        afterAll body w ((((tab w).items.drop iter).filter Item.live).map (fun it => .val it.key))))
  | 0, _, _, _, _, hf => by omega
  | f + 1, iter, w, ht, hi, hf => by
    rcases skipFree_spec ht _ iter rfl hi with ⟨h1, h2⟩ | ⟨it, h1, h2, h3, h4⟩
    · simp [forEach, iter1, h1, h2, afterAll]
    · have hr := forEach_table_total tab body hb f (skipFree (tab w).items ((tab w).size - iter) iter + 1) (body (.val it.key) w)
        (by rw [hb]; exact ht) (by rw [hb]; omega) (by rw [hb]; omega)
      rw [hb] at hr
      simp only [forEach, iter1, if_neg (Nat.not_le.2 h2), h3]
      rw [hr, h4]
      rfl

/-- C66, tables: a loop whose body leaves the table alone visits exactly the keys that are present, each once, and ends.
Missing from the full property: bodies that assign to keys of the table they iterate over, where it is false even if all these keys are present
(`C66_assignment_revisits`). -/
theorem C66_table_partial {W : Type} (tab : W → Table) (body : Elem → W → W) (hb : ∀ e w, tab (body e w) = tab w) (w : W) (ops : List TOp)
    (hok : ∀ op ∈ ops, op.OK) (g : Nat) (hr : Table.new.run g ops = some (tab w)) (f : Nat) (hf : (tab w).size < f) :
    ∃ ks : List Val, forEach (fun w => .table (tab w)) body f 0 w = some (.ok (ks.map .val, afterAll body w (ks.map .val))) ∧
      ks.Nodup ∧ ∀ k, k ∈ ks ↔ (specOf ops k).isSome := by
  obtain ⟨hi, -⟩ := run_spec ops new_spec.1 hok hr
  obtain ⟨h1, h2, -⟩ := C05_enumeration ops hok g _ hr
  refine ⟨(tab w).keys, ?_, h1, h2⟩
  have := forEach_table_total tab body hb f 0 w hi (by omega) (by omega)
  simpa [Table.keys, Table.entries, Function.comp_def] using this

example : ((Table.new.run 100 [.set (.int 1) (.int 7), .set (.str [97]) (.int 8), .rm (.int 1), .set (.int 32) (.int 9)]).map fun t =>
    (forEach (W := Table) (fun w => .table w) (fun _ w => w) 99 0 t).map fun r => match r with | .ok (es, _) => es | _ => []) =
    some (some [.val (.str [97]), .val (.int 32)]) := by decide +kernel

/-- the keys 31, 32, …, 53 -/
def bigKeys : List TOp := (List.range 23).map fun n => .set (.int (BitVec.ofNat 64 (31 + n))) (.int 0)

/-- C66 fails for `for k <- t { t[k] = 1; }`: assigning to a key that is present may enlarge the table, after which keys are visited again. -/
theorem C66_assignment_revisits :
    ((Table.new.run 100 bigKeys).bind fun t =>
      forEach (W := Table) (fun w => .table w)
        (fun e w => match e with | .val k => (w.insert 100 k (.int 1)).elim w Prod.fst | .str _ => w) 100 0 t).map
      (fun r => match r with | .ok (es, _) => (es.length, es.count (.val (.int 31))) | _ => (0, 0)) = some (24, 2) := by
  decide +kernel

end Yasl
