import Verif.Props.Table
import Verif.Model.Print
set_option autoImplicit false
/-!
# C62 — printing cyclic lists and tables

`Prints` (in `Verif.Spec.Print`) says what the text is.
-/
namespace Yasl

/-- the references in a value lead to an object of the right kind -/
def Val.Points (h : List HObj) : Val → Prop
  | .ref .list a => ∃ items, h[a]? = some (.list items)
  | .ref .table a => ∃ t, h[a]? = some (.table t)
  | _ => True

/-- a heap without dangling references, in which a table has length 0 exactly if it has no entries (which is C04, for tables on which no absent key was
removed) -/
def HObj.Sound (h : List HObj) : HObj → Prop
  | .list items => ∀ v ∈ items, v.Points h
  | .table t => (∀ it ∈ t.entries, it.value.Points h) ∧ (t.count = 0 ↔ t.entries = [])

/-- what one call gives: a text as specified, or a stack overflow; the latter only without room -/
def PrintOK (P : List Byte → Prop) (room : Prop) (r : Option TRes) : Prop :=
  ∃ x, r = some x ∧ (∀ text, x = .ok text → P text) ∧ x ≠ .ub ∧ (room → x ≠ .overflow)

theorem PrintOK.ok {P : List Byte → Prop} {room : Prop} {b : List Byte} (h : P b) : PrintOK P room (some (.ok b)) :=
  ⟨_, rfl, fun _ e => by cases e; exact h, by simp, by simp⟩

theorem PrintOK.bind {P Q : List Byte → Prop} {room : Prop} {x : Option TRes} {g : List Byte → Option TRes} (hx : PrintOK P room x)
    (hg : ∀ b, P b → PrintOK Q room (g b)) : PrintOK Q room (TRes.bind x g) := by
  obtain ⟨r, rfl, h1, h2, h3⟩ := hx
  cases r with
  | ok b => exact hg b (h1 b rfl)
  | overflow => exact ⟨.overflow, rfl, by simp, by simp, h3⟩
  | ub => exact absurd rfl h2

theorem PrintOK.push {P : List Byte → Prop} {room : Prop} {sp : Nat} {x : Option TRes} (hx : PrintOK P room x) (hr : room → sp + 1 < 1024) :
    PrintOK P room (pushAt sp x) := by
  unfold pushAt
  split
  · exact ⟨.overflow, rfl, by simp, by simp, fun hroom => by have := hr hroom; omega⟩
  · exact hx

theorem PrintOK.mono {P Q : List Byte → Prop} {room room' : Prop} {x : Option TRes} (hx : PrintOK P room x) (h : ∀ b, P b → Q b)
    (hr : room' → room) : PrintOK Q room' x := by
  obtain ⟨r, rfl, h1, h2, h3⟩ := hx
  exact ⟨r, rfl, fun t e => h t (h1 t e), h2, fun hh => h3 (hr hh)⟩

theorem stringifyLeaf_ok {leaf : Val → List Byte} {sp : Nat} {v : Val} {room : Prop} (hr : room → sp + 1 < 1024) :
    PrintOK (· = leaf v) room (stringifyLeaf leaf sp v) := by
  unfold stringifyLeaf
  split
  · exact .ok rfl
  · exact (PrintOK.ok (P := (· = leaf v)) rfl).push hr

/-- the buffer after the texts `xs` -/
def buffered (bb : List Byte) (xs : List (List Byte)) : List Byte := bb ++ xs.flatMap fun x => x ++ printBytes ", "

theorem buffered_cons (bb x : List Byte) (xs : List (List Byte)) : buffered (bb ++ x ++ printBytes ", ") xs = buffered bb (x :: xs) := by
  simp [buffered]

theorem buffered_comma : ∀ (xs : List (List Byte)) (bb : List Byte), xs ≠ [] → buffered bb xs = bb ++ commaSep xs ++ printBytes ", "
  | [], _, h => absurd rfl h
  | [x], bb, _ => by simp [buffered, commaSep]
  | x :: y :: xs, bb, _ => by
    rw [← buffered_cons, buffered_comma (y :: xs) _ (by simp)]
    simp [commaSep]

theorem closeWith_ok (c : Byte) (bb : List Byte) (xs : List (List Byte)) (h : xs ≠ []) :
    closeWith c (buffered bb xs) = some (.ok (bb ++ commaSep xs ++ [c])) := by
  have hl : (printBytes ", ").length = 2 := by decide
  rw [buffered_comma xs bb h]
  unfold closeWith
  rw [if_neg (by simp only [List.length_append, hl]; omega)]
  have : (bb ++ commaSep xs ++ printBytes ", ").take ((bb ++ commaSep xs ++ printBytes ", ").length - 2) = bb ++ commaSep xs := by
    apply List.take_left'
    simp only [List.length_append, hl]; omega
  rw [this]

section
variable {h : List HObj} {leaf : Val → List Byte}

/-- what the recursive calls give: `n` is the number of objects that are not in the buffer -/
def RecOK (h : List HObj) (leaf : Val → List Byte) (f : Nat) : Prop :=
  ∀ (sp : Nat) (anc : List Nat) (v : Val) (a : Nat), (v = .ref .list a ∨ v = .ref .table a) → v.Points h → (anc ++ [a]).Nodup →
    (∀ b ∈ anc, b < h.length) → h.length - (anc.length + 1) < f →
    PrintOK (Prints h leaf anc v) (sp + (h.length - (anc.length + 1)) + 2 < 1024) (printHelper h leaf f sp (anc ++ [a]) a)

theorem points_lt {v : Val} {a : Nat} (hv : v = .ref .list a ∨ v = .ref .table a) (hp : v.Points h) : a < h.length := by
  rcases hv with rfl | rfl
  · obtain ⟨_, hg⟩ := hp
    exact (List.getElem?_eq_some_iff.1 hg).1
  · obtain ⟨_, hg⟩ := hp
    exact (List.getElem?_eq_some_iff.1 hg).1

theorem nodup_len {l : List Nat} {n : Nat} (h1 : l.Nodup) (h2 : ∀ b ∈ l, b < n) : l.length ≤ n := by
  have := List.nodup_range (n := n)
  have hs : l ⊆ List.range n := fun b hb => List.mem_range.2 (h2 b hb)
  have := (List.subperm_of_subset h1 hs).length_le
  simpa using this

theorem printValue_ok {f : Nat} (hrec : RecOK h leaf f) {sp : Nat} {buf : List Nat} (hnd : buf.Nodup) (hlt : ∀ b ∈ buf, b < h.length)
    (hf : h.length - buf.length < f + 1) (v : Val) (hp : v.Points h) (bb : List Byte) {room : Prop}
    (hr : room → sp + (h.length - buf.length) + 1 < 1024) :
    PrintOK (fun b => ∃ x, Prints h leaf buf v x ∧ b = bb ++ x ++ printBytes ", ") room (printValue leaf (printHelper h leaf f) sp buf v bb) := by
  have again : ∀ (t : String), bb ++ printBytes (t ++ ", ") = bb ++ printBytes t ++ printBytes ", " := by
    intro t; simp [printBytes, String.toList_append]
  have coll : ∀ a, (v = .ref .list a ∨ v = .ref .table a) → ¬ a ∈ buf →
      PrintOK (fun b => ∃ x, Prints h leaf buf v x ∧ b = bb ++ x ++ printBytes ", ") room
        (TRes.bind (printHelper h leaf f sp (buf ++ [a]) a) fun str => some (.ok (bb ++ str ++ printBytes ", "))) := by
    intro a hv ha
    have hnd' : (buf ++ [a]).Nodup := by
      rw [List.nodup_append]
      exact ⟨hnd, by simp, fun x hx y hy => by rw [List.mem_singleton.1 hy]; exact fun e => ha (e ▸ hx)⟩
    have halt := points_lt hv hp
    have hlen : (buf ++ [a]).length ≤ h.length := nodup_len hnd' (fun b hb => by
      rcases List.mem_append.1 hb with hb | hb
      · exact hlt b hb
      · rw [List.mem_singleton.1 hb]; exact halt)
    simp only [List.length_append, List.length_cons, List.length_nil] at hlen
    have hr' := hrec sp buf v a hv hp hnd' hlt (by omega)
    refine (hr'.mono (fun b hb => hb) (room' := room) (fun hroom => by have := hr hroom; omega)).bind fun b hb => .ok ⟨b, hb, rfl⟩
  have leafCase : (∀ a, v ≠ .ref .list a ∧ v ≠ .ref .table a) →
      PrintOK (fun b => ∃ x, Prints h leaf buf v x ∧ b = bb ++ x ++ printBytes ", ") room
        (TRes.bind (stringifyLeaf leaf sp v) fun str => some (.ok (bb ++ str ++ printBytes ", "))) := by
    intro hv
    refine (stringifyLeaf_ok fun hroom => by have := hr hroom; omega).bind fun b hb => .ok ⟨b, ?_, rfl⟩
    rw [hb]
    exact .leaf _ _ hv
  cases v with
  | ref k a =>
    cases k with
    | list =>
      simp only [printValue]
      split
      · rename_i hc
        exact .ok ⟨printBytes "[...]", .listAgain _ _ (by simpa using hc), again "[...]"⟩
      · rename_i hc
        exact coll a (.inl rfl) (by simpa using hc)
    | table =>
      simp only [printValue]
      split
      · rename_i hc
        exact .ok ⟨printBytes "{...}", .tableAgain _ _ (by simpa using hc), again "{...}"⟩
      · rename_i hc
        exact coll a (.inr rfl) (by simpa using hc)
    | _ => exact leafCase (by simp)
  | _ => exact leafCase (by simp)

theorem printItems_ok {f : Nat} (hrec : RecOK h leaf f) {sp : Nat} {buf : List Nat} (hnd : buf.Nodup) (hlt : ∀ b ∈ buf, b < h.length)
    (hf : h.length - buf.length < f + 1) {room : Prop} (hr : room → sp + (h.length - buf.length) + 2 < 1024) :
    ∀ (vs : List Val) (bb : List Byte), (∀ v ∈ vs, v.Points h) →
    PrintOK (fun b => ∃ xs, PrintsAll h leaf buf vs xs ∧ b = buffered bb xs) room (printItems leaf (printHelper h leaf f) sp buf vs bb)
  | [], bb, _ => .ok ⟨[], .nil _, by simp [buffered]⟩
  | v :: vs, bb, hp => by
    refine ((printValue_ok hrec hnd hlt hf v (hp v (by simp)) bb (sp := sp + 1) fun hroom => by have := hr hroom; omega).push
      fun hroom => by have := hr hroom; omega).bind ?_
    rintro b ⟨x, hx, rfl⟩
    refine (printItems_ok hrec hnd hlt hf hr vs (bb ++ x ++ printBytes ", ") (fun w hw => hp w (by simp [hw]))).mono ?_ id
    rintro b ⟨xs, hxs, rfl⟩
    exact ⟨x :: xs, .cons _ _ _ _ _ hx hxs, buffered_cons bb x xs⟩

theorem printEntries_ok {f : Nat} (hrec : RecOK h leaf f) {sp : Nat} {buf : List Nat} (hnd : buf.Nodup) (hlt : ∀ b ∈ buf, b < h.length)
    (hf : h.length - buf.length < f + 1) {room : Prop} (hr : room → sp + (h.length - buf.length) + 2 < 1024) :
    ∀ (its : List Item) (bb : List Byte), (∀ it ∈ its, it.value.Points h) →
    PrintOK (fun b => ∃ xs, PrintsEntries h leaf buf its xs ∧ b = buffered bb xs) room (printEntries leaf (printHelper h leaf f) sp buf its bb)
  | [], bb, _ => .ok ⟨[], .nil _, by simp [buffered]⟩
  | it :: its, bb, hp => by
    refine ((stringifyLeaf_ok (leaf := leaf) (sp := sp + 1) (v := it.key) fun hroom => by have := hr hroom; omega).push
      fun hroom => by have := hr hroom; omega).bind ?_
    intro key hkey
    refine ((printValue_ok hrec hnd hlt hf it.value (hp it (by simp)) (bb ++ key ++ printBytes ": ") (sp := sp + 1)
      fun hroom => by have := hr hroom; omega).push fun hroom => by have := hr hroom; omega).bind ?_
    rintro b ⟨x, hx, rfl⟩
    refine (printEntries_ok hrec hnd hlt hf hr its _ (fun w hw => hp w (by simp [hw]))).mono ?_ id
    rintro b ⟨xs, hxs, rfl⟩
    refine ⟨(leaf it.key ++ printBytes ": " ++ x) :: xs, .cons _ _ _ _ _ hx hxs, ?_⟩
    rw [← buffered_cons, hkey]
    simp [List.append_assoc]

theorem PrintsAll.ne_nil {anc : List Nat} {vs : List Val} {xs : List (List Byte)} (hx : PrintsAll h leaf anc vs xs) (hv : vs ≠ []) : xs ≠ [] := by
  cases hx with
  | nil => exact absurd rfl hv
  | cons => simp

theorem PrintsEntries.ne_nil {anc : List Nat} {vs : List Item} {xs : List (List Byte)} (hx : PrintsEntries h leaf anc vs xs) (hv : vs ≠ []) : xs ≠ [] := by
  cases hx with
  | nil => exact absurd rfl hv
  | cons => simp

theorem printHelper_ok (hs : ∀ o ∈ h, o.Sound h) : ∀ f, RecOK h leaf f
  | 0 => fun _ _ _ _ _ _ _ _ hf => by omega
  | f + 1 => by
    intro sp anc v a hv hp hnd hlt hf
    have hrec := printHelper_ok hs f
    have halt := points_lt hv hp
    have hlt' : ∀ b ∈ anc ++ [a], b < h.length := fun b hb => by
      rcases List.mem_append.1 hb with hb | hb
      · exact hlt b hb
      · rw [List.mem_singleton.1 hb]; exact halt
    have hna : a ∉ anc := by
      rw [List.nodup_append] at hnd
      exact fun ha => hnd.2.2 a ha a (by simp) rfl
    have hl : (anc ++ [a]).length = anc.length + 1 := by simp
    rcases hv with rfl | rfl
    · obtain ⟨items, hg⟩ := hp
      have hso := hs _ (List.mem_of_getElem? hg)
      simp only [printHelper, hg]
      by_cases he : items = []
      · subst he
        simp only [List.length_nil, if_true]
        exact .ok (.list anc a hna [] [] hg (.nil _))
      · rw [if_neg (by simpa using he)]
        refine (printItems_ok hrec hnd hlt' (by rw [hl]; omega) (by rw [hl]; exact id) items _ hso).bind ?_
        rintro b ⟨xs, hxs, rfl⟩
        rw [closeWith_ok _ _ _ (hxs.ne_nil he)]
        exact .ok (.list anc a hna items xs hg hxs)
    · obtain ⟨t, hg⟩ := hp
      have hso := hs _ (List.mem_of_getElem? hg)
      simp only [printHelper, hg]
      by_cases he : t.count = 0
      · rw [if_pos he]
        have he' := hso.2.1 he
        have := Prints.table (h := h) (leaf := leaf) anc a hna t [] hg (by rw [he']; exact .nil _)
        exact .ok this
      · rw [if_neg he]
        refine (printEntries_ok hrec hnd hlt' (by rw [hl]; omega) (by rw [hl]; exact id) t.entries _ hso.1).bind ?_
        rintro b ⟨xs, hxs, rfl⟩
        rw [closeWith_ok _ _ _ (hxs.ne_nil fun e => he (hso.2.2 e))]
        exact .ok (.table anc a hna t xs hg hxs)

/-- C62: for every finite heap of lists and tables, cyclic or not, printing a list or table terminates (the recursion is at most as deep as there are
objects), with the specified text or with the error `StackOverflow`; not with the latter if the stack has two slots and one for every object.
Missing from the full property: deeper structures, where printing is an error (`C62_deep_overflow`), and tables whose length is wrong, where the code writes
outside of a buffer (`C62_wrong_length_ub`). -/
theorem C62_tostr_partial (hs : ∀ o ∈ h, o.Sound h) (v : Val) (a sp : Nat) (hv : v = .ref .list a ∨ v = .ref .table a) (hp : v.Points h) (f : Nat)
    (hf : h.length ≤ f) :
    ∃ r, tostr h leaf f sp a = some r ∧ r ≠ .ub ∧ (∀ text, r = .ok text → Prints h leaf [] v text) ∧ (sp + h.length + 1 < 1024 → ∃ text, r = .ok text) := by
  have halt := points_lt hv hp
  obtain ⟨r, h1, h2, h3, h4⟩ := printHelper_ok hs f sp [] v a hv hp (by simp) (by simp) (by simp; omega)
  refine ⟨r, h1, h3, h2, fun hroom => ?_⟩
  cases r with
  | ok text => exact ⟨text, rfl⟩
  | overflow => exact absurd rfl (h4 (by simp; omega))
  | ub => exact absurd rfl h3
end

/-- a list that contains itself, a table and a number; the table contains the list -/
def cyclicHeap : Option (List HObj) :=
  (Table.new.run 100 [.set (.int 5) (.ref .list 0), .set (.int 7) (.ref .list 2)]).map fun t =>
    [.list [.ref .list 0, .ref .table 1, .int 3], .table t, .list []]
def demoLeaf : Val → List Byte
  | .int i => printBytes (toString i.toInt)
  | _ => printBytes "?"
example : ∃ h, cyclicHeap = some h ∧ (∀ o ∈ h, o.Sound h) := by
  refine ⟨_, rfl, ?_⟩
  intro o ho
  simp only [List.mem_cons, List.not_mem_nil, or_false] at ho
  rcases ho with rfl | rfl | rfl
  · intro v hv
    simp only [List.mem_cons, List.not_mem_nil, or_false] at hv
    rcases hv with rfl | rfl | rfl
    · exact ⟨_, rfl⟩
    · exact ⟨_, rfl⟩
    · trivial
  · refine ⟨?_, by decide +kernel⟩
    intro it hit
    have he : ∀ it ∈ (Option.get _ (by decide +kernel : (Table.new.run 100 [.set (.int 5) (.ref .list 0), .set (.int 7) (.ref .list 2)]).isSome)).entries,
        it.value = .ref .list 0 ∨ it.value = .ref .list 2 := by decide +kernel
    rcases he it hit with h | h
    · rw [h]; exact ⟨_, rfl⟩
    · rw [h]; exact ⟨_, rfl⟩
  · intro v hv; simp at hv
example : cyclicHeap.map (fun h => tostr h demoLeaf 3 0 0) = some (some (.ok (printBytes "[[...], {7: [], 5: [...]}, 3]"))) := by decide +kernel

/-- `n` lists nested in each other -/
def deepHeap (n : Nat) : List HObj := (List.range n).map fun i => if i + 1 < n then .list [.ref .list (i + 1)] else .list []

theorem deep_overflow (n : Nat) (leaf : Val → List Byte) : ∀ (d f sp : Nat) (buf : List Nat) (i : Nat), sp + d = 1023 → d < f → i + d + 1 < n →
    (∀ b ∈ buf, b ≤ i) → printHelper (deepHeap n) leaf f sp buf i = some .overflow
  | d, 0, _, _, _, _, hf, _, _ => by omega
  | d, f + 1, sp, buf, i, hd, hf, hi, hb => by
    have hg : (deepHeap n)[i]? = some (.list [.ref .list (i + 1)]) := by
      have h1 : (List.range n)[i]? = some i := by rw [List.getElem?_range (by omega)]
      simp [deepHeap, h1, show i + 1 < n by omega]
    simp only [printHelper, hg, List.length_cons, List.length_nil, Nat.zero_add, Nat.one_ne_zero, if_false, printItems]
    cases d with
    | zero => simp [pushAt, show sp + 1 ≥ 1024 by omega, TRes.bind]
    | succ d =>
      have hc : i + 1 ∉ buf := fun hm => by
        have := hb (i + 1) hm
        omega
      have := deep_overflow n leaf d f (sp + 1) (buf ++ [i + 1]) (i + 1) (by omega) (by omega) (by omega) (fun b hb' => by
        rcases List.mem_append.1 hb' with hb' | hb'
        · have := hb b hb'; omega
        · rw [List.mem_singleton.1 hb'])
      simp [pushAt, show ¬ sp + 1 ≥ 1024 by omega, printValue, hc, this, TRes.bind]

/-- C62 fails for deep structures: printing more than 1024 lists nested in each other is a `StackOverflow`. -/
theorem C62_deep_overflow (n : Nat) (hn : 1024 < n) (leaf : Val → List Byte) : tostr (deepHeap n) leaf n 0 0 = some .overflow :=
  deep_overflow n leaf 1023 n 0 [0] 0 (by omega) (by omega) (by omega) (by simp)

/-- C62 fails after removing an absent key from an empty table: its length is 2^64 − 1, it has no entries, and the closing bracket is written before the
beginning of the buffer. -/
theorem C62_wrong_length_ub (leaf : Val → List Byte) :
    ∃ t, Table.new.run 100 [.rm (.int 7)] = some t ∧ tostr [.table t] leaf 1 0 0 = some .ub := by
  have h : ∃ t, Table.new.run 100 [.rm (.int 7)] = some t ∧ t.count ≠ 0 ∧ t.entries = [] := ⟨_, rfl, by decide +kernel, by decide +kernel⟩
  obtain ⟨t, h1, h2, h3⟩ := h
  exact ⟨t, h1, by simp [tostr, printHelper, h2, h3, printEntries, TRes.bind, closeWith, printBytes]⟩

end Yasl
