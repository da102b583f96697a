import Verif.Model.Require
import Verif.Spec.Require
import Mathlib.Tactic.Push
set_option autoImplicit false
/-!
# C97: where `require` looks
-/
namespace Yasl

theorem cstrOf_terminated : ∀ (s : List Byte) (r : Block Byte), 0#8 ∉ s → cstrOf (s.map some ++ some 0#8 :: r) = .ok s
  | [], r, _ => by simp [cstrOf]
  | c :: s, r, h => by
    simp only [List.mem_cons, not_or] at h
    simp only [List.map_cons, List.cons_append, cstrOf]
    rw [if_neg (Ne.symm h.1), cstrOf_terminated s r h.2]
    rfl

theorem peekCstr_eq : ∀ (s : List Byte), peekCstr s = .ok (s.takeWhile (· != 0#8))
  | [] => rfl
  | c :: s => by
    have := peekCstr_eq s
    unfold peekCstr at this ⊢
    simp only [List.map_cons, List.cons_append, cstrOf, List.takeWhile_cons]
    by_cases hc : c = 0#8
    · simp [hc]
    · simp [hc, this]

theorem memcpy_exact {m : Block Byte} {d : Nat} {src : List Byte} {a b r : Block Byte} (hm : m = a ++ b ++ r) (ha : a.length = d) (hb : b.length = src.length) :
    m.memcpy d src = .ok (a ++ src.map some ++ r) := by
  subst hm
  have h1 : (a ++ b ++ r).take d = a := by rw [List.append_assoc, ← ha, List.take_left']; rfl
  have h2 : (a ++ b ++ r).drop (d + src.length) = r := by
    rw [← ha, ← hb, ← List.length_append, List.drop_left']; rfl
  unfold Block.memcpy
  rw [h1, h2, if_pos (by simp; omega)]

/-- One entry: the buffer is large enough, every byte of it that is read has been written, and it holds the entry with the name filled in. -/
theorem pathBuffer_entry (p r1 r2 rest name : List Byte) (sep mark : Byte) (hm : mark ∉ r1) :
    ∃ tail, pathBuffer (p ++ (r1 ++ mark :: r2) ++ sep :: rest) name mark p.length (p.length + (r1 ++ mark :: r2).length) =
      .ok ((r1 ++ name ++ r2).map some ++ some 0#8 :: tail) := by
  have hdrop : ∀ k : Nat, (p ++ (r1 ++ mark :: r2) ++ sep :: rest).drop (p.length + k) = ((r1 ++ mark :: r2) ++ sep :: rest).drop k := by
    intro k; rw [List.append_assoc, List.drop_append]; simp
  have hchr : strchrFrom (p ++ (r1 ++ mark :: r2) ++ sep :: rest) p.length mark = some (p.length + r1.length) := by
    have := hdrop 0
    simp only [Nat.add_zero, List.drop_zero] at this
    unfold strchrFrom
    rw [this, List.append_assoc, List.findIdx?_append]
    have h0 : r1.findIdx? (· == mark) = none := by
      rw [List.findIdx?_eq_none_iff]; intro x hx; simp; rintro rfl; exact hm hx
    rw [h0]
    simp [List.findIdx?_cons]
  unfold pathBuffer
  rw [hchr]
  dsimp only
  have e1 : p.length + r1.length - p.length = r1.length := by omega
  have e2 : p.length + (r1 ++ mark :: r2).length - p.length = r1.length + r2.length + 1 := by simp; omega
  have e3 : p.length + (r1 ++ mark :: r2).length - (p.length + r1.length) - 1 = r2.length := by simp; omega
  have e4 : ¬ (p.length + (r1 ++ mark :: r2).length < p.length + r1.length + 1) := by simp; omega
  rw [e1, e2, e3]
  simp only [if_neg e4]
  have d0 := hdrop 0
  have d1 := hdrop (r1.length + 1)
  simp only [Nat.add_zero, List.drop_zero] at d0
  rw [d0, show p.length + r1.length + 1 = p.length + (r1.length + 1) by omega, d1]
  have t0 : ((r1 ++ mark :: r2) ++ sep :: rest).take r1.length = r1 := by simp
  have t1 : (((r1 ++ mark :: r2) ++ sep :: rest).drop (r1.length + 1)).take r2.length = r2 := by
    rw [show (r1 ++ mark :: r2) ++ sep :: rest = (r1 ++ [mark]) ++ (r2 ++ sep :: rest) by simp, show r1.length + 1 = (r1 ++ [mark]).length by simp, List.drop_left]
    simp
  rw [t0, t1]
  have rep : ∀ a b : Nat, (List.replicate (a + b) none : Block Byte) = List.replicate a none ++ List.replicate b none := fun a b => by simp
  have hb : (Block.malloc (r1.length + r2.length + 1 + name.length + 1) : Block Byte) =
      [] ++ List.replicate r1.length none ++ (List.replicate name.length none ++ (List.replicate r2.length none ++ [none, none])) := by
    unfold Block.malloc
    rw [show r1.length + r2.length + 1 + name.length + 1 = r1.length + (name.length + (r2.length + 2)) by omega, rep, rep, rep]
    rfl
  rw [memcpy_exact (d := 0) (src := r1) hb rfl (by simp)]
  simp only [Out.bind_ok, List.nil_append]
  rw [memcpy_exact (a := r1.map some) (b := List.replicate name.length none) (r := List.replicate r2.length none ++ [none, none]) (by simp) (by simp) (by simp)]
  simp only [Out.bind_ok]
  rw [memcpy_exact (a := r1.map some ++ name.map some) (b := List.replicate r2.length none) (r := [none, none]) (by simp) (by simp) (by simp)]
  simp only [Out.bind_ok]
  rw [if_neg (by omega)]
  refine ⟨[none], ?_⟩
  unfold Block.st
  rw [if_pos (by simp; omega), show r1.length + r2.length + 1 + name.length - 1 = (r1.map some ++ name.map some ++ r2.map some : Block Byte).length by simp; omega]
  rw [List.set_append_right _ _ (Nat.le_refl _)]
  simp

theorem fillIn_split (mark : Byte) (name r1 r2 : List Byte) (hm : mark ∉ r1) : fillIn mark name (r1 ++ mark :: r2) = r1 ++ name ++ r2 := by
  induction r1 with
  | nil => simp [fillIn]
  | cons c r1 ih =>
    simp only [List.mem_cons, not_or] at hm
    simp only [List.cons_append, fillIn]
    rw [if_neg (Ne.symm hm.1), ih hm.2]

theorem entriesOf_split (sep : Byte) (e p : List Byte) (he : sep ∉ e) : entriesOf sep (e ++ sep :: p) = e :: entriesOf sep p := by
  induction e with
  | nil => simp [entriesOf]
  | cons c e ih =>
    simp only [List.mem_cons, not_or] at he
    simp only [List.cons_append, entriesOf]
    rw [if_neg (Ne.symm he.1), ih he.2]

theorem entriesOf_none (sep : Byte) (e : List Byte) (he : sep ∉ e) : entriesOf sep e = [] := by
  induction e with
  | nil => simp [entriesOf]
  | cons c e ih =>
    simp only [List.mem_cons, not_or] at he
    simp only [entriesOf]
    rw [if_neg (Ne.symm he.1), ih he.2]

theorem split_first {c : Byte} {l : List Byte} (h : c ∈ l) : ∃ a b, l = a ++ c :: b ∧ c ∉ a := by
  induction l with
  | nil => cases h
  | cons d l ih =>
    by_cases hd : d = c
    · exact ⟨[], l, by simp [hd], by simp⟩
    · have hl : c ∈ l := by simpa [Ne.symm hd] using h
      obtain ⟨a, b, h1, h2⟩ := ih hl
      exact ⟨d :: a, b, by simp [h1], by simp [h2, Ne.symm hd]⟩

theorem strchrFrom_none {p l : List Byte} {c : Byte} (h : c ∉ l) : strchrFrom (p ++ l) p.length c = none := by
  unfold strchrFrom
  rw [List.drop_left]
  simp only [Option.map_eq_none_iff, List.findIdx?_eq_none_iff]
  intro x hx; simp; rintro rfl; exact h hx

theorem strchrFrom_some {p a b : List Byte} {c : Byte} (h : c ∉ a) : strchrFrom (p ++ (a ++ c :: b)) p.length c = some (p.length + a.length) := by
  unfold strchrFrom
  rw [List.drop_left, List.findIdx?_append]
  have h0 : a.findIdx? (· == c) = none := by
    rw [List.findIdx?_eq_none_iff]; intro x hx; simp; rintro rfl; exact h hx
  rw [h0]
  simp [List.findIdx?_cons]

theorem mem_fillIn {mark c : Byte} {name e : List Byte} (h : c ∈ fillIn mark name e) : c ∈ name ∨ c ∈ e := by
  induction e with
  | nil => simp [fillIn] at h
  | cons d e ih =>
    simp only [fillIn] at h
    split at h
    · rcases List.mem_append.1 h with h | h
      · exact .inl h
      · exact .inr (by simp [h])
    · rcases List.mem_cons.1 h with h | h
      · exact .inr (by simp [h])
      · exact (ih h).imp id (by intro h; simp [h])

/-- From a point of the path on. -/
theorem pathLoop_spec {σ : Type} (opens : List Byte → Option σ) (name : List Byte) (sep mark : Byte) (hn : 0#8 ∉ name) :
    ∀ (f : Nat) (p l : List Byte) (tried : List (List Byte)), l.length < f → 0#8 ∉ l → (∀ e ∈ entriesOf sep l, mark ∈ e) →
    pathLoop opens (p ++ l) name sep mark f p.length tried =
      some (.ok (tried ++ (tryInOrder opens (candidates sep mark l name)).1, (tryInOrder opens (candidates sep mark l name)).2))
  | 0, _, _, _, h, _, _ => by omega
  | f + 1, p, l, tried, hf, h0, hmk => by
    unfold pathLoop
    by_cases hs : sep ∈ l
    · obtain ⟨e, rest, rfl, he⟩ := split_first hs
      rw [strchrFrom_some he]
      dsimp only
      have hent := entriesOf_split sep e rest he
      obtain ⟨r1, r2, rfl, hm⟩ := split_first (hmk e (by rw [hent]; simp))
      obtain ⟨tail, hbuf⟩ := pathBuffer_entry p r1 r2 rest name sep mark hm
      rw [show p ++ (r1 ++ mark :: r2 ++ sep :: rest) = p ++ (r1 ++ mark :: r2) ++ sep :: rest by simp, hbuf]
      have h0' : 0#8 ∉ r1 ++ name ++ r2 := by
        simp only [List.mem_append, List.mem_cons, not_or] at h0 ⊢
        exact ⟨⟨h0.1.1, hn⟩, h0.1.2.2⟩
      simp only [Run.bind_ok]
      rw [cstrOf_terminated _ _ h0']
      simp only [Run.bind_ok]
      have hcand : candidates sep mark (r1 ++ mark :: r2 ++ sep :: rest) name = (r1 ++ name ++ r2) :: candidates sep mark rest name := by
        simp only [candidates, hent, List.map_cons, fillIn_split mark name r1 r2 hm, List.cons_append]
      rw [hcand]
      cases ho : opens (r1 ++ name ++ r2) with
      | some s => rw [tryInOrder, ho]
      | none =>
        have ih := pathLoop_spec opens name sep mark hn f (p ++ (r1 ++ mark :: r2) ++ [sep]) rest (tried ++ [r1 ++ name ++ r2])
          (by simp only [List.length_append, List.length_cons] at hf; omega)
          (by simp only [List.mem_append, List.mem_cons, not_or] at h0 ⊢; exact h0.2.2) (by rw [hent] at hmk; intro e he; exact hmk e (by simp [he]))
        rw [show (p ++ (r1 ++ mark :: r2) ++ [sep]).length = p.length + (r1 ++ mark :: r2).length + 1 by simp; omega,
          show p ++ (r1 ++ mark :: r2) ++ [sep] ++ rest = p ++ (r1 ++ mark :: r2) ++ sep :: rest by simp] at ih
        rw [tryInOrder, ho]
        simp only [ih]
        simp only [List.append_assoc, List.singleton_append]
    · rw [strchrFrom_none hs]
      simp only [candidates, entriesOf_none sep l hs, List.map_nil, List.nil_append]
      cases ho : opens name <;> simp [tryInOrder, ho]

/-- The search function, for every path whose entries all have a mark: no access out of bounds, the candidates in order, the first that opens. -/
theorem C97_search {σ : Type} (opens : List Byte → Option σ) (path name : List Byte) (sep mark : Byte) (hp : 0#8 ∉ path) (hn : 0#8 ∉ name)
    (hmk : ∀ e ∈ entriesOf sep path, mark ∈ e) :
    searchPath opens path name sep mark = some (.ok (tryInOrder opens (candidates sep mark path name))) := by
  have := pathLoop_spec opens name sep mark hn (path.length + 1) [] path [] (by omega) hp hmk
  simpa [searchPath] using this

/-- An entry without a mark is not used as it is: the search is undefined behaviour as soon as it gets there. -/
theorem C97_no_mark {σ : Type} (opens : List Byte → Option σ) (e rest name : List Byte) (sep mark : Byte) (hne : sep ≠ mark) (hs : sep ∉ e) (hm : mark ∉ e) :
    searchPath opens (e ++ sep :: rest) name sep mark = some .ub := by
  unfold searchPath pathLoop
  have h1 : strchrFrom (e ++ sep :: rest) 0 sep = some e.length := by simpa using strchrFrom_some (p := []) (b := rest) hs
  rw [h1]
  dsimp only
  have hub : pathBuffer (e ++ sep :: rest) name mark 0 e.length = .ub := by
    unfold pathBuffer
    by_cases hr : mark ∈ rest
    · obtain ⟨a, b, rfl, ha⟩ := split_first hr
      have h2 : strchrFrom (e ++ sep :: (a ++ mark :: b)) 0 mark = some (e.length + 1 + a.length) := by
        have := strchrFrom_some (p := []) (a := e ++ sep :: a) (b := b) (c := mark) (by simp [hm, Ne.symm hne, ha])
        simp only [List.nil_append, List.append_assoc, List.cons_append, List.length_nil, List.length_append, List.length_cons] at this
        rw [this]; congr 1; omega
      rw [h2]
      dsimp only
      have key : ∀ (x : Out (Block Byte)) (g : Block Byte → Out (Block Byte)), (x = .ub ∨ ∃ y, x = .ok y) → (∀ y, g y = .ub) → x.bind g = .ub := by
        rintro x g (rfl | ⟨y, rfl⟩) hg
        · rfl
        · exact hg y
      have mc : ∀ (m : Block Byte) (d : Nat) (s : List Byte), m.memcpy d s = .ub ∨ ∃ y, m.memcpy d s = .ok y := by
        intro m d s
        unfold Block.memcpy
        split
        · exact .inr ⟨_, rfl⟩
        · exact .inl rfl
      refine key _ _ (mc _ _ _) fun y => key _ _ (mc _ _ _) fun z => ?_
      rw [if_pos (by omega)]
    · have h2 : strchrFrom (e ++ sep :: rest) 0 mark = none := by
        simpa using strchrFrom_none (p := []) (l := e ++ sep :: rest) (c := mark) (by simp [hm, Ne.symm hne, hr])
      rw [h2]
  rw [hub]
  rfl

/-- The name `require` works with: the string up to its first NUL byte. -/
def moduleName (arg : List Byte) : List Byte := arg.takeWhile (· != 0#8)

theorem moduleName_nul (arg : List Byte) : 0#8 ∉ moduleName arg := by
  intro h
  have := List.all_takeWhile (p := (· != 0#8)) (l := arg)
  rw [List.all_eq_true] at this
  simpa using this _ h

/-- What a lookup reports for the candidates `cs`. -/
def lookupResult {σ : Type} (opens : List Byte → Option σ) (cs : List (List Byte)) : RequireRes σ :=
  match tryInOrder opens cs with
  | (tried, some s) => .found tried s
  | (tried, none) => .notFound tried

/-- **C97** `require(name)`: for every string and every file system, the files tried are `/usr/local/lib/yasl/NAME.yasl`, `./NAME.yasl` and `NAME`, in this order
and only until one opens; with another argument it is a type error. -/
theorem C97_require {σ : Type} (opens : List Byte → Option σ) (arg : List Byte) :
    requireLookup opens defaultPath (some arg) = some (lookupResult opens
      [asciiBytes "/usr/local/lib/yasl/" ++ moduleName arg ++ asciiBytes ".yasl", asciiBytes "./" ++ moduleName arg ++ asciiBytes ".yasl", moduleName arg]) ∧
    requireLookup opens defaultPath none = some (.typeError : RequireRes σ) := by
  refine ⟨?_, rfl⟩
  have hc : candidates pathSep pathMark defaultPath (moduleName arg) =
      [asciiBytes "/usr/local/lib/yasl/" ++ moduleName arg ++ asciiBytes ".yasl", asciiBytes "./" ++ moduleName arg ++ asciiBytes ".yasl", moduleName arg] := by
    simp [candidates, defaultPath, asciiBytes, entriesOf, fillIn, pathSep, pathMark]
  have := C97_search opens defaultPath (moduleName arg) pathSep pathMark (by decide +kernel) (moduleName_nul arg) (by decide +kernel)
  unfold requireLookup
  simp only [peekCstr_eq]
  rw [show arg.takeWhile (· != 0#8) = moduleName arg from rfl, this, hc]
  unfold lookupResult
  generalize tryInOrder opens _ = r
  obtain ⟨t, _ | s⟩ := r <;> rfl

/-- **C97** for `__require_c__`: the four entries of the default C path, then the name. -/
theorem C97_require_c {σ : Type} (opens : List Byte → Option σ) (arg : List Byte) :
    requireLookup opens defaultCPath (some arg) = some (lookupResult opens
      [asciiBytes "/usr/local/lib/yasl/lib" ++ moduleName arg ++ asciiBytes ".so", asciiBytes "/usr/local/lib/yasl/" ++ moduleName arg ++ asciiBytes ".so",
       asciiBytes "./lib" ++ moduleName arg ++ asciiBytes ".so", asciiBytes "./" ++ moduleName arg ++ asciiBytes ".so", moduleName arg]) := by
  have hc : candidates pathSep pathMark defaultCPath (moduleName arg) =
      [asciiBytes "/usr/local/lib/yasl/lib" ++ moduleName arg ++ asciiBytes ".so", asciiBytes "/usr/local/lib/yasl/" ++ moduleName arg ++ asciiBytes ".so",
       asciiBytes "./lib" ++ moduleName arg ++ asciiBytes ".so", asciiBytes "./" ++ moduleName arg ++ asciiBytes ".so", moduleName arg] := by
    simp [candidates, defaultCPath, asciiBytes, entriesOf, fillIn, pathSep, pathMark]
  have := C97_search opens defaultCPath (moduleName arg) pathSep pathMark (by decide +kernel) (moduleName_nul arg) (by decide +kernel)
  unfold requireLookup
  simp only [peekCstr_eq]
  rw [show arg.takeWhile (· != 0#8) = moduleName arg from rfl, this, hc]
  unfold lookupResult
  generalize tryInOrder opens _ = r
  obtain ⟨t, _ | s⟩ := r <;> rfl

/-- A file system with one file, `./m.yasl`. -/
def demoFs : List Byte → Option Nat := fun f => if f = asciiBytes "./m.yasl" then some 7 else none

example : requireLookup demoFs defaultPath (some (asciiBytes "m")) = some (.found [asciiBytes "/usr/local/lib/yasl/m.yasl", asciiBytes "./m.yasl"] 7) := by decide +kernel
example : requireLookup demoFs defaultPath (some (asciiBytes "n")) =
    some (.notFound [asciiBytes "/usr/local/lib/yasl/n.yasl", asciiBytes "./n.yasl", asciiBytes "n"]) := by decide +kernel
-- the part of the name after a NUL byte is ignored
example : requireLookup demoFs defaultPath (some (asciiBytes "m" ++ [0#8] ++ asciiBytes "x")) =
    some (.found [asciiBytes "/usr/local/lib/yasl/m.yasl", asciiBytes "./m.yasl"] 7) := by decide +kernel

end Yasl
