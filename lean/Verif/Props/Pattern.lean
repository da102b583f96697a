import Verif.Proofs.Pattern
set_option autoImplicit false
/-!
# Patterns: C53, C54

`Pat.bindings` (in `Verif.Spec.Pattern`) says what a pattern matches and binds; `matchPat` and `ffPat` are the machine, which reads the code of the pattern.  `rest` is
the code behind the pattern.
-/
namespace Yasl

/-- **C53** Skipping a pattern consumes exactly its code, whatever follows. -/
theorem C53_skip (ix : Val → Nat) (p : Pat) (hs : p.Sized) : ∃ d, ∀ f, d ≤ f → ∀ rest, ffPat f (compilePat ix p ++ rest) = some rest :=
  ⟨p.depth, skips_pat ix p hs⟩

/-- **C53** (partial: as long as matching meets no table that lacks a key of the pattern; see `C53_missing_key`.)  Whether it matches or not, matching a pattern consumes exactly
its code. -/
theorem C53_match_partial (H : Heap) (K : List Val) (ix : Val → Nat) (p : Pat) (hb : p.Balanced) (hs : p.Sized)
    (hn : ∀ c ∈ p.lits, K[ix c]? = some c ∧ ix c < 2 ^ 64) : ∃ d, ∀ f, d ≤ f → ∀ rest v slots, p.LeftKeysMet H v → ∃ matched left slots',
      matchPat H K f (compilePat ix p ++ rest) v slots = some (matched, left, slots') ∧ (matched = true ∨ p.KeysMet H v → left = rest) := by
  refine ⟨p.depth, fun f hf rest v slots hp => ?_⟩
  have := matchPat_ok H K ix p f v slots rest hf hb hp hs hn
  cases h : p.bindings H v with
  | some l => rw [h] at this; exact ⟨true, rest, _, this, fun _ => rfl⟩
  | none =>
    rw [h] at this
    obtain ⟨us, sl, h1, _, h3, _⟩ := this
    refine ⟨false, _, sl, h1, fun h => ?_⟩
    rw [h3 (by simpa using h)]; rfl

/-- **C53** (partial, likewise.)  In particular for patterns without keyed table patterns, and all values. -/
theorem C53_no_keys_partial (H : Heap) (K : List Val) (ix : Val → Nat) (p : Pat) (hb : p.Balanced) (hp : p.PlainLeft) (hk : p.noKeys = true) (hs : p.Sized)
    (hn : ∀ c ∈ p.lits, K[ix c]? = some c ∧ ix c < 2 ^ 64) : ∃ d, ∀ f, d ≤ f → ∀ rest v slots, ∃ matched slots',
      matchPat H K f (compilePat ix p ++ rest) v slots = some (matched, rest, slots') := by
  obtain ⟨d, h⟩ := C53_match_partial H K ix p hb hs hn
  refine ⟨d, fun f hf rest v slots => ?_⟩
  obtain ⟨m, left, sl, h1, h2⟩ := h f hf rest v slots (plainLeft_met H p v hp)
  rw [h2 (.inr (noKeys_met H p v hk))] at h1
  exact ⟨m, sl, h1⟩

/-- **C54** (partial: matching the left side of a `|` meets no table that lacks a key of the pattern, see `C54_missing_key`; the right side of each `|` binds what the left side may
have bound, see `C54_stale_binding`.)  The machine answers that the pattern matches iff it does; then the variables have the values they are bound to, and nothing else changes.
If it does not match, nothing but the variables of the pattern changes. -/
theorem C54_match_partial (H : Heap) (K : List Val) (ix : Val → Nat) (p : Pat) (hb : p.Balanced) (hs : p.Sized)
    (hn : ∀ c ∈ p.lits, K[ix c]? = some c ∧ ix c < 2 ^ 64) : ∃ d, ∀ f, d ≤ f → ∀ rest v slots, p.LeftKeysMet H v → match p.bindings H v with
      | some l => matchPat H K f (compilePat ix p ++ rest) v slots = some (true, rest, bindAllIn slots l)
      | none => ∃ left slots', matchPat H K f (compilePat ix p ++ rest) v slots = some (false, left, slots') ∧ ∀ s, s ∉ p.vars → slots' s = slots s := by
  refine ⟨p.depth, fun f hf rest v slots hp => ?_⟩
  have := matchPat_ok H K ix p f v slots rest hf hb hp hs hn
  cases h : p.bindings H v with
  | some l => rw [h] at this; exact this
  | none =>
    rw [h] at this
    obtain ⟨us, sl, h1, _, _, h4⟩ := this
    exact ⟨_, sl, h1, h4⟩

/-- **C54** (partial, likewise.)  It is enough that the compiler accepts the pattern, that no right side of `|` has variables that the left side has not, and that no left side has
a keyed table pattern. -/
theorem C54_accepted_partial (H : Heap) (K : List Val) (ix : Val → Nat) (p : Pat) (ha : acceptsPat p) (hv : p.SameSides) (hp : p.PlainLeft) (hs : p.Sized)
    (hn : ∀ c ∈ p.lits, K[ix c]? = some c ∧ ix c < 2 ^ 64) : ∃ d, ∀ f, d ≤ f → ∀ rest v slots, match p.bindings H v with
      | some l => matchPat H K f (compilePat ix p ++ rest) v slots = some (true, rest, bindAllIn slots l)
      | none => ∃ left slots', matchPat H K f (compilePat ix p ++ rest) v slots = some (false, left, slots') ∧ ∀ s, s ∉ p.vars → slots' s = slots s := by
  obtain ⟨st, hst⟩ := Option.isSome_iff_exists.1 ha
  obtain ⟨d, h⟩ := C54_match_partial H K ix p (checkPat_ok p _ st hst hv).1 hs hn
  exact ⟨d, fun f hf rest v slots => h f hf rest v slots (plainLeft_met H p v hp)⟩

/-! ## Examples and counterexamples -/

/-- Lists `[7, 3]` at 0, `[5, [7, 3]]` at 1; the table `{98: 5}` at 0. -/
def demoHeap : Heap where
  list a := match a with
    | 0 => [.int 7, .int 3]
    | 1 => [.int 5, .ref .list 0]
    | _ => []
  count _ := 1
  entry _ v := if v = .int 98 then some (.int 5) else none

def demoConsts : List Val := [.int 1, .int 2, .int 97, .int 98]
def demoIx (v : Val) : Nat := demoConsts.idxOf v

/-- `[let x, ([1, let y] | [let y, ...]), ...]`. -/
def demoPat : Pat :=
  .ls true (.cons (.bind 0) (.cons (.alt (.ls false (.cons (.lit (.int 1)) (.cons (.bind 1) .nil))) (.ls true (.cons (.bind 1) .nil))) .nil))

example : acceptsPat demoPat := by unfold acceptsPat; decide +kernel
example : demoPat.SameSides ∧ demoPat.PlainLeft ∧ demoPat.Sized := by
  simp [demoPat, Pat.SameSides, Pats.SameSides, Pat.PlainLeft, Pats.PlainLeft, Pat.Sized, Pats.Sized, Pat.vars, Pats.vars, Pat.noKeys, Pats.noKeys, Pats.length]
example : ∀ c ∈ demoPat.lits, demoConsts[demoIx c]? = some c ∧ demoIx c < 2 ^ 64 := by
  simp [demoPat, Pat.lits, Pats.lits]; decide
example : demoPat.bindings demoHeap (.ref .list 1) = some [(0, .int 5), (1, .int 7)] := by decide +kernel
example : demoPat.noKeys = true := by decide +kernel

/-- The pattern `{97: *}`. -/
def keyPat : Pat := .table false (.cons (.lit (.int 97)) .any .nil)

/-- `{98: 7} | {98: *}` against `{98: 5}`: a keyed table pattern on the left whose key is there. -/
example : (Pat.alt (.table false (.cons (.lit (.int 98)) (.lit (.int 2)) .nil)) (.table false (.cons (.lit (.int 98)) .any .nil))).LeftKeysMet demoHeap (.ref .table 0) ∧
    (Pat.alt (.table false (.cons (.lit (.int 98)) (.lit (.int 2)) .nil)) (.table false (.cons (.lit (.int 98)) .any .nil))).bindings demoHeap (.ref .table 0) = some [] := by
  refine ⟨?_, by decide +kernel⟩
  simp [Pat.LeftKeysMet, KVs.LeftKeysMet, Pat.KeysMet, KVs.KeysMet, demoHeap, PKey.value]

/-- **C53 fails** for a table pattern with a key that the table has not: the sub-pattern of that key is left unread. -/
theorem C53_missing_key : matchPat demoHeap demoConsts 5 (compilePat demoIx keyPat ++ [0x01#8]) (.ref .table 0) (fun _ => .undef) =
    some (false, [0x0F#8, 0x01#8], fun _ => .undef) := by
  have : compilePat demoIx keyPat = [0x9C#8, 2#8, 0#8, 0#8, 0#8, 0#8, 0#8, 0#8, 0#8, 0x9A#8, 2#8, 0x0F#8] := by decide +kernel
  rw [this]; rfl

/-- **C54 fails** for `{97: *} | undef`: the table `{98: 5}` is not matched by it, but the machine says so, and goes on at the code of `undef`. -/
theorem C54_missing_key : (Pat.alt keyPat .undef).bindings demoHeap (.ref .table 0) = none ∧ acceptsPat (.alt keyPat .undef) ∧
    matchPat demoHeap demoConsts 5 (compilePat demoIx (.alt keyPat .undef)) (.ref .table 0) (fun _ => .undef) = some (true, [0x01#8], fun _ => .undef) := by
  refine ⟨by decide +kernel, by unfold acceptsPat; decide +kernel, ?_⟩
  have : compilePat demoIx (.alt keyPat .undef) = [0xB0#8, 0x9C#8, 2#8, 0#8, 0#8, 0#8, 0#8, 0#8, 0#8, 0#8, 0x9A#8, 2#8, 0x0F#8, 0x01#8] := by decide +kernel
  rw [this]; rfl

/-- `[let a, ([(1 | let a), 2] | [*, *])]`. -/
def stalePat : Pat := .ls false (.cons (.bind 0) (.cons
  (.alt (.ls false (.cons (.alt (.lit (.int 1)) (.bind 0)) (.cons (.lit (.int 2)) .nil))) (.ls false (.cons .any (.cons .any .nil)))) .nil))

/-- **C54 fails** for the accepted pattern `[let a, ([(1 | let a), 2] | [*, *])]`: matching `[5, [7, 3]]` binds `a` to 5, the machine leaves the 7 of the alternative that failed. -/
theorem C54_stale_binding : acceptsPat stalePat ∧ stalePat.PlainLeft ∧ stalePat.bindings demoHeap (.ref .list 1) = some [(0, .int 5)] ∧
    ∃ slots', matchPat demoHeap demoConsts 9 (compilePat demoIx stalePat) (.ref .list 1) (fun _ => .undef) = some (true, [], slots') ∧ slots' 0 = .int 7 := by
  refine ⟨by unfold acceptsPat; decide +kernel, by simp [stalePat, Pat.PlainLeft, Pats.PlainLeft, Pat.noKeys, Pats.noKeys], by decide +kernel, ?_⟩
  have : compilePat demoIx stalePat = [0x9D#8, 2#8, 0#8, 0#8, 0#8, 0#8, 0#8, 0#8, 0#8, 0xF4#8, 0#8, 0xB0#8, 0x9D#8, 2#8, 0#8, 0#8, 0#8, 0#8, 0#8, 0#8, 0#8, 0xB0#8, 0x9A#8, 0#8, 0xF4#8, 0#8, 0x9A#8, 1#8,
    0x9D#8, 2#8, 0#8, 0#8, 0#8, 0#8, 0#8, 0#8, 0#8, 0x0F#8, 0x0F#8] := by decide +kernel
  rw [this]
  exact ⟨_, rfl, rfl⟩

/-- **C54 fails** for table patterns whose key is the name of a type, such as `{int: *}`, which are accepted: the machine uses a value that was never set. -/
theorem C54_type_key : matchPat demoHeap demoConsts 5 [0x9C#8, 2#8, 0#8, 0#8, 0#8, 0#8, 0#8, 0#8, 0#8, 0x03#8, 0x0F#8] (.ref .table 0) (fun _ => .undef) = none := rfl

end Yasl
