import Verif.Proofs.Str
import Verif.Props.List
/-!
# String methods (C44 – C51)

`s.Holds bs` (`Verif.Proofs.Str`) says that the object `s` – heap string or view of a block owned by someone else, at any offset – is
well formed and denotes the bytes `bs`.  All theorems quantify over such objects.  Loops take fuel; the theorems say that the
method terminates (any fuel above the length of the string will do) and what it returns.
-/
set_option autoImplicit false
namespace Yasl
open Spec

/-- Example strings. -/
def exAbc : YStr := YStr.heap [97, 98, 99]
/-- The view `"ru"` of the C literal `"true"` (`true.tostr()[1:3]`). -/
def exView : YStr := { mem := [116, 114, 117, 101], start := 1, stop := 3, onHeap := false }

theorem exAbc_holds : exAbc.Holds [97, 98, 99] := YStr.holds_heap _
theorem exView_holds : exView.Holds [114, 117] := by constructor <;> decide

/-! ## C44: indexing and slices -/

/-- C44 (indexing): `s[i]` is the one-byte string at `i` (from the end if negative) for `-n ≤ i < n`, and a ValueError otherwise. -/
theorem C44_index (s : YStr) (bs : List Byte) (h : s.Holds bs) (i : BitVec 64) :
    (∀ k : Nat, (hk : k < bs.length) → (i.toInt = k ∨ i.toInt = (k : Int) - bs.length) → ∃ p, strGet s i = .ok p ∧ p.Holds [bs[k]]) ∧
    ((i.toInt < -(bs.length : Int) ∨ i.toInt ≥ bs.length) → strGet s i = .valueError) := by
  constructor
  · intro k hk hi
    rw [strGet, h.len, if_neg (by omega)]
    obtain ⟨p, hp1, hp2⟩ := h.piece (a := k) (b := k + 1) (by omega) (by omega)
    have e1 : (bs.drop k).take (k + 1 - k) = [bs[k]] := by
      rw [List.drop_eq_getElem_cons hk, show k + 1 - k = 1 by omega]; simp [-List.getElem_cons_drop]
    rw [e1] at hp2
    refine ⟨p, ?_, hp2⟩
    by_cases hn : i.toInt ≥ 0
    · rw [if_pos hn, ← hp1]
      congr 1 <;> omega
    · rw [if_neg hn, ← hp1]
      congr 1 <;> omega
  · intro hi
    rw [strGet, h.len, if_pos hi]

/-- Case: `'abc'[-1] == 'c'`, and the index 3 is out of range. -/
example : (strGet exAbc (-1)) = .ok (YStr.heap [99]) ∧ strGet exAbc 3 = .valueError ∧ exAbc.Holds [97, 98, 99] :=
  ⟨by decide, by decide, exAbc_holds⟩

theorem sliceEnd_bound (n : Nat) (b : Option (BitVec 64)) :
    sliceEnd n (boundVal b) = .ok (sliceHi n (b.map BitVec.toInt)) := by
  cases b with
  | none => simp [boundVal, sliceEnd, sliceHi]
  | some b =>
    simp only [boundVal, sliceEnd, sliceHi, Option.map_some]
    congr 1
    split <;> (try split) <;> omega

theorem sliceStart_bound (n : Nat) (a : Option (BitVec 64)) :
    sliceStart n (boundVal a) = .ok (sliceLo n (a.map BitVec.toInt)) := by
  cases a with
  | none => simp [boundVal, sliceStart, sliceLo]
  | some a =>
    simp only [boundVal, sliceStart, sliceLo, Option.map_some]
    congr 1
    split <;> (try split) <;> omega

/-- C44 (slices), the part that holds: on a string which starts at the beginning of its block (every heap string and every
C literal that is not itself a slice) and for bounds which are in order, `s[a:b]` has the bytes with index in `[a', b')`.  Missing:
bounds out of order (`C44_slice_crossed`) and views with an offset (`C44_slice_offset`). -/
theorem C44_slice_partial (s : YStr) (bs : List Byte) (h : s.Holds bs) (h0 : s.start = 0) (a b : Option (BitVec 64))
    (hab : sliceLo bs.length (a.map BitVec.toInt) ≤ sliceHi bs.length (b.map BitVec.toInt)) :
    ∃ p, strSlice s (boundVal a) (boundVal b) = .ok p ∧ p.Holds (slice bs (a.map BitVec.toInt) (b.map BitVec.toInt)) := by
  rw [strSlice, h.len, sliceEnd_bound, sliceStart_bound, slice_eq]
  simp only [Out.bind_ok]
  have hlo : 0 ≤ sliceLo bs.length (a.map BitVec.toInt) := by cases a <;> simp [sliceLo]
  have hhi : sliceHi bs.length (b.map BitVec.toInt) ≤ bs.length := by cases b <;> simp [sliceHi]
  generalize sliceLo bs.length (a.map BitVec.toInt) = lo at *
  generalize sliceHi bs.length (b.map BitVec.toInt) = hi at *
  obtain ⟨p, hp1, hp2⟩ := h.piece (a := lo.toNat) (b := hi.toNat) (by omega) (by omega)
  rw [h0] at hp1
  refine ⟨p, ?_, ?_⟩
  · rw [← hp1]; congr 1 <;> omega
  · rw [show (hi - lo).toNat = hi.toNat - lo.toNat by omega]; exact hp2

/-- Case: `'abc'[-2:] == 'bc'`. -/
example : strSlice exAbc (boundVal (some (-2))) (boundVal none) = .ok (YStr.heap [98, 99]) := by decide

/-- C44 is false for bounds that are out of order: for every string, the slice is undefined behaviour (a wrapped-around size is
passed to `malloc` and `memcpy`) instead of the empty string. -/
theorem C44_slice_crossed (s : YStr) (bs : List Byte) (h : s.Holds bs) (a b : Option (BitVec 64))
    (hab : sliceHi bs.length (b.map BitVec.toInt) < sliceLo bs.length (a.map BitVec.toInt)) :
    strSlice s (boundVal a) (boundVal b) = .ub ∧ slice bs (a.map BitVec.toInt) (b.map BitVec.toInt) = [] := by
  constructor
  · rw [strSlice, h.len, sliceEnd_bound, sliceStart_bound]
    simp only [Out.bind_ok]
    rw [YStr.substring, if_pos (.inr hab)]
  · rw [slice_eq, show (sliceHi bs.length (b.map BitVec.toInt) - sliceLo bs.length (a.map BitVec.toInt)).toNat = 0 by omega]; simp

/-- Case: `'abc'[2:1]`, `'abc'[5:]` and `'abc'[:-5]`. -/
example : strSlice exAbc (.int 2) (.int 1) = .ub ∧ strSlice exAbc (.int 5) .undef = .ub ∧ strSlice exAbc .undef (.int (-5)) = .ub := by decide

/-- C44 is false for views with an offset: the bounds are taken relative to the block, not to the string.
`true.tostr()[1:3][0:1]` is `'t'`, not `'r'`. -/
theorem C44_slice_offset : exView.Holds [114, 117] ∧ slice [(114 : Byte), 117] (some 0) (some 1) = [114] ∧
    ∃ p, strSlice exView (boundVal (some 0)) (boundVal (some 1)) = .ok p ∧ p.Holds [116] :=
  ⟨exView_holds, by decide, { exView with start := 0, stop := 1 }, by decide, by constructor <;> decide⟩

/-- C44: any other bound is a TypeError. -/
theorem C44_bad_bound (s : YStr) (a b : Val) (h : (∀ i, b ≠ .int i) ∧ b ≠ .undef) : strSlice s a b = .typeError := by
  cases b <;> simp_all [strSlice, sliceEnd, Out.bind]

/-! ## C45: search -/

/-- C45: `s.search(t)` is the least index at which `t` occurs, or undef if it occurs nowhere. -/
theorem C45_search (h n : YStr) (hb nb : List Byte) (hh : h.Holds hb) (hn : n.Holds nb) :
    (strFind h n = .ok none ∧ ¬ nb <:+: hb) ∨
    (∃ i, strFind h n = .ok (some i) ∧ nb <+: hb.drop i ∧ i ≤ hb.length ∧ ∀ j < i, ¬ nb <+: hb.drop j) := by
  rw [strFind, hh.len, hn.len]
  by_cases hl : hb.length < nb.length
  · rw [if_pos hl]; left
    exact ⟨rfl, fun hi => absurd hi.length_le (by omega)⟩
  · rw [if_neg hl]
    rcases findLoop_spec hh hn (hb.length - nb.length + 1) 0 (by omega) with ⟨e, hx⟩ | ⟨m, e, _, hm2, hm3, hm4⟩
    · left
      refine ⟨e, ?_⟩
      rintro ⟨x, y, rfl⟩
      exact hx x.length (by omega) (by simp) ⟨y, by simp⟩
    · right
      exact ⟨m, e, hm3, by omega, fun j hj => hm4 j (by omega) hj⟩

/-- Case: the second byte of `"ru"` found in a literal-backed view. -/
example : strFind exView (YStr.heap [117]) = .ok (some 1) ∧ strFind exView (YStr.heap [101]) = .ok none := by decide

/-! ## C46: replace -/

/-- C46: `s.replace(a, b)` for nonempty `a` terminates and returns the pieces of `s` between the leftmost non-overlapping
occurrences of `a`, joined with `b`. -/
theorem C46_replace (s a b : YStr) (sb ab rb : List Byte) (hs : s.Holds sb) (ha : a.Holds ab) (hb : b.Holds rb) (hne : ab ≠ [])
    (ps : List (List Byte)) (hcut : Cut ab sb ps) (f : Nat) (hf : sb.length < f) :
    ∃ p, strReplace f s a b = some (.ok p) ∧ p.Holds (rb.intercalate ps) := by
  have hal := List.length_pos_iff.2 hne
  rw [strReplace, ha.len, if_neg (by omega), hs.len]
  by_cases h0 : sb.length = 0
  · have : sb = [] := List.length_eq_zero_iff.1 h0
    subst this
    rw [Cut.short (by simpa using hal)] at hcut
    subst hcut
    obtain ⟨f, rfl⟩ : ∃ g, f = g + 1 := ⟨f - 1, by omega⟩
    rw [replLoop, hs.len, if_neg (by simp), Run.bind_ok]
    obtain ⟨p, hp, hp'⟩ := bbString_holds (bb := ByteBuffer.new ([] : List Byte).length) (l := []) (by simp [ByteBuffer.new])
    exact ⟨p, by rw [hp], by simpa [List.intercalate] using hp'⟩
  · have hbb : (ByteBuffer.new sb.length).Holds (([] : List Byte).map some) := by
      constructor <;> simp [ByteBuffer.new]; omega
    obtain ⟨bb, h1, h2⟩ := replLoop_spec hs ha hb hne f 0 ps _ [] (by omega) (by omega) (by simpa using hcut) hbb
    rw [h1, Run.bind_ok]
    obtain ⟨p, hp, hp'⟩ := bbString_holds (bb := bb) (l := rb.intercalate ps) (by simpa using h2.pre)
    exact ⟨p, by rw [hp], hp'⟩

/-- C46: there always is exactly one such list of pieces, so `C46_replace` determines the result. -/
theorem C46_cut_exists_unique (a s : List Byte) (ha : a ≠ []) :
    (∃! ps, Cut a s ps) ∧ ∀ ps, Cut a s ps → a.intercalate ps = s ∧ ∀ p ∈ ps, ¬ a <:+: p :=
  ⟨Cut.exists_unique ha s, fun _ h => ⟨h.join, h.pieces ha⟩⟩

/-- C46: an empty first argument is a ValueError. -/
theorem C46_replace_empty (s a b : YStr) (ha : a.Holds []) (f : Nat) : strReplace f s a b = some .valueError := by
  rw [strReplace, ha.len]; rfl

/-- Case: `'aaa'.replace('aa', 'b') == 'ba'`. -/
example : strReplace 9 (YStr.heap [97, 97, 97]) (YStr.heap [97, 97]) (YStr.heap [98]) = some (.ok (YStr.heap [98, 97])) ∧
    Cut [97, 97] [97, 97, 97] [[], [97]] := by
  refine ⟨by decide, ?_⟩
  exact Cut.cons [] [97] [[97]] (by simp) (.last _ (by decide))

theorem replMaxLoop_many {s a b : YStr} {sb ab rb : List Byte} (hs : s.Holds sb) (ha : a.Holds ab) (hb : b.Holds rb) (hne : ab ≠ []) :
    ∀ f i (max : Int) ps (bb : ByteBuffer) (out : List Byte), i ≤ sb.length → sb.length - i < f → ((sb.length - i : Nat) : Int) ≤ max →
      Cut ab (sb.drop i) ps → bb.Holds (out.map some) →
      ∃ bb', replMaxLoop s a b f i max bb = some (.ok bb') ∧ bb'.Holds ((out ++ rb.intercalate ps).map some) := by
  have hal := List.length_pos_iff.2 hne
  intro f
  induction f with
  | zero => intro i max ps bb out _ hf; omega
  | succ f ih =>
    intro i max ps bb out hil hf hmax hcut hbb
    rw [replMaxLoop, hs.len, ha.len]
    by_cases hi : i < sb.length
    · rw [if_pos hi]
      have key : ∃ hit : Bool, (if ab.length ≤ sb.length - i then
          Run.bind (some (s.sub i ab.length)) fun x => Run.bind (some (a.sub 0 ab.length)) fun y =>
            some (.ok (decide (x = y) && decide (max > 0)))
          else some (.ok false)) = some (.ok hit) ∧ (hit = true ↔ ab <+: sb.drop i) := by
        by_cases hl : ab.length ≤ sb.length - i
        · obtain ⟨h1, h2, h3⟩ := hs.cmp ha (i := i) (by omega)
          rw [ha.len] at h1 h2
          rw [if_pos hl, h1, h2]
          refine ⟨_, rfl, ?_⟩
          have : max > 0 := by omega
          simpa [this] using h3
        · rw [if_neg hl]
          exact ⟨_, rfl, by simpa using not_prefix_of_short (by simp; omega)⟩
      obtain ⟨hit, hk, hiff⟩ := key
      rw [hk]
      simp only [Run.bind_ok]
      by_cases hh : hit = true
      · rw [if_pos hh]
        obtain ⟨qs, rfl, hq⟩ := (Cut.hit (hiff.1 hh)).1 hcut
        have hpl := (hiff.1 hh).length_le
        rw [List.length_drop] at hpl
        rw [List.drop_drop] at hq
        obtain ⟨bb1, hb1, hb1'⟩ := append_step hbb rb
        rw [hb.sub0, Run.bind_ok, hb1]
        simp only [bbOut, Run.bind_ok]
        rw [if_neg (by omega)]
        rw [← List.map_append] at hb1'
        obtain ⟨bb2, hb2, hb2'⟩ := ih _ (max - 1) qs bb1 _ (by omega) (by omega) (by omega) hq hb1'
        refine ⟨bb2, hb2, ?_⟩
        obtain ⟨q, qs, rfl⟩ := List.exists_cons_of_ne_nil hq.ne_nil
        simpa [List.intercalate] using hb2'
      · rw [if_neg hh]
        rw [List.drop_eq_getElem_cons hi] at hcut hiff
        obtain ⟨p, qs, rfl, hq⟩ := (Cut.miss (fun hp => hh (hiff.2 hp))).1 hcut
        obtain ⟨bb1, hb1, hb1'⟩ := addByte_step hbb sb[i]
        rw [hs.at hi, Run.bind_ok, hb1]
        simp only [bbOut, Run.bind_ok]
        rw [if_neg (by omega)]
        have : List.map some out ++ [some sb[i]] = List.map some (out ++ [sb[i]]) := by simp
        rw [this] at hb1'
        obtain ⟨bb2, hb2, hb2'⟩ := ih _ (max - 1) _ bb1 _ (by omega) (by omega) (by omega) hq hb1'
        refine ⟨bb2, hb2, ?_⟩
        cases qs <;> simpa [List.intercalate] using hb2'
    · rw [if_neg hi]
      have : i = sb.length := by omega
      subst this
      rw [List.drop_length, Cut.short (by simpa using hal)] at hcut
      subst hcut
      exact ⟨bb, rfl, by simpa [List.intercalate] using hbb⟩

theorem replMaxLoop_none {s a b : YStr} {sb ab : List Byte} (hs : s.Holds sb) (ha : a.Holds ab) :
    ∀ f i (max : Int) (bb : ByteBuffer) (out : List Byte), i ≤ sb.length → sb.length - i < f → max ≤ 0 →
      -2 ^ 63 + ((sb.length - i : Nat) : Int) ≤ max → bb.Holds (out.map some) →
      ∃ bb', replMaxLoop s a b f i max bb = some (.ok bb') ∧ bb'.Holds ((out ++ sb.drop i).map some) := by
  intro f
  induction f with
  | zero => intro i max bb out _ hf; omega
  | succ f ih =>
    intro i max bb out hil hf hmax hmin hbb
    rw [replMaxLoop, hs.len, ha.len]
    by_cases hi : i < sb.length
    · rw [if_pos hi]
      have key : (if ab.length ≤ sb.length - i then
          Run.bind (some (s.sub i ab.length)) fun x => Run.bind (some (a.sub 0 ab.length)) fun y =>
            some (.ok (decide (x = y) && decide (max > 0)))
          else some (.ok false)) = some (.ok false) := by
        by_cases hl : ab.length ≤ sb.length - i
        · obtain ⟨h1, h2, _⟩ := hs.cmp ha (i := i) (by omega)
          rw [ha.len] at h1 h2
          rw [if_pos hl, h1, h2]
          have : ¬ max > 0 := by omega
          simp [this]
        · rw [if_neg hl]
      rw [key]
      simp only [Run.bind_ok, Bool.false_eq_true, if_false]
      obtain ⟨bb1, hb1, hb1'⟩ := addByte_step hbb sb[i]
      rw [hs.at hi, Run.bind_ok, hb1]
      simp only [bbOut, Run.bind_ok]
      rw [if_neg (by omega)]
      have : List.map some out ++ [some sb[i]] = List.map some (out ++ [sb[i]]) := by simp
      rw [this] at hb1'
      obtain ⟨bb2, hb2, hb2'⟩ := ih (i + 1) (max - 1) bb1 _ (by omega) (by omega) (by omega) (by omega) hb1'
      refine ⟨bb2, hb2, ?_⟩
      rw [List.drop_eq_getElem_cons hi]
      simpa [-List.getElem_cons_drop] using hb2'
    · rw [if_neg hi]
      have : i = sb.length := by omega
      subst this
      exact ⟨bb, rfl, by simpa using hbb⟩

theorem replaceMax_empty {s a b : YStr} {ab : List Byte} (hs : s.Holds []) (ha : a.Holds ab) (hne : ab ≠ []) (max : BitVec 64)
    (f : Nat) (hf : 0 < f) : ∃ p, strReplaceMax f s a b max = some (.ok p) ∧ p.Holds [] := by
  have hal := List.length_pos_iff.2 hne
  rw [strReplaceMax, ha.len, if_neg (by omega), hs.len]
  obtain ⟨f, rfl⟩ : ∃ g, f = g + 1 := ⟨f - 1, by omega⟩
  rw [replMaxLoop, hs.len, if_neg (by simp), Run.bind_ok]
  obtain ⟨p, hp, hp'⟩ := bbString_holds (bb := ByteBuffer.new ([] : List Byte).length) (l := []) (by simp [ByteBuffer.new])
  exact ⟨p, by rw [hp], hp'⟩

/-- C46 (with a limit), the part that holds: a limit of at least the length of the string replaces all occurrences, a limit of 0 (or
a negative one, unless `limit--` overflows) replaces none.  Missing: limits in between, where the code counts bytes instead of
occurrences (`C46_limit_counts_bytes`), and limits near INT64_MIN (`C46_limit_overflow`). -/
theorem C46_replace_limit_partial (s a b : YStr) (sb ab rb : List Byte) (hs : s.Holds sb) (ha : a.Holds ab) (hb : b.Holds rb)
    (hne : ab ≠ []) (ps : List (List Byte)) (hcut : Cut ab sb ps) (max : BitVec 64) (f : Nat) (hf : sb.length < f) :
    ((sb.length : Int) ≤ max.toInt → ∃ p, strReplaceMax f s a b max = some (.ok p) ∧ p.Holds (rb.intercalate ps)) ∧
    (max.toInt ≤ 0 → -2 ^ 63 + (sb.length : Int) ≤ max.toInt → ∃ p, strReplaceMax f s a b max = some (.ok p) ∧ p.Holds sb) := by
  have hal := List.length_pos_iff.2 hne
  by_cases h0 : sb = []
  · subst h0
    obtain ⟨p, hp, hp'⟩ := replaceMax_empty (b := b) hs ha hne max f (by omega)
    rw [Cut.short (by simpa using hal)] at hcut
    subst hcut
    exact ⟨fun _ => ⟨p, hp, by simpa [List.intercalate] using hp'⟩, fun _ _ => ⟨p, hp, hp'⟩⟩
  · have hpos := List.length_pos_iff.2 h0
    have hbb : (ByteBuffer.new sb.length).Holds (([] : List Byte).map some) := by
      constructor <;> simp [ByteBuffer.new]; omega
    rw [strReplaceMax, ha.len, if_neg (by omega), hs.len]
    constructor
    · intro hm
      obtain ⟨bb, h1, h2⟩ := replMaxLoop_many hs ha hb hne f 0 max.toInt ps _ [] (by omega) (by omega) (by simpa using hm) (by simpa using hcut) hbb
      rw [h1, Run.bind_ok]
      obtain ⟨p, hp, hp'⟩ := bbString_holds (bb := bb) (l := rb.intercalate ps) (by simpa using h2.pre)
      exact ⟨p, by rw [hp], hp'⟩
    · intro hm1 hm2
      obtain ⟨bb, h1, h2⟩ := replMaxLoop_none (b := b) hs ha f 0 max.toInt _ [] (by omega) (by omega) hm1 (by simpa using hm2) hbb
      rw [h1, Run.bind_ok]
      obtain ⟨p, hp, hp'⟩ := bbString_holds (bb := bb) (l := sb) (by simpa using h2.pre)
      exact ⟨p, by rw [hp], hp'⟩

/-- C46 is false with a limit: every byte passed counts against it.  `'xa'.replace('a', 'b', 1)` is `'xa'` although `'a'` occurs once
and the limit is 1. -/
theorem C46_limit_counts_bytes :
    strReplaceMax 9 (YStr.heap [120, 97]) (YStr.heap [97]) (YStr.heap [98]) 1 = some (.ok (YStr.heap [120, 97])) ∧
      Cut [97] [120, 97] [[120], []] := by
  refine ⟨by decide, ?_⟩
  exact Cut.cons [120] [] [[]] (by decide) (.last _ (by decide))

/-- C46: the limit INT64_MIN is undefined behaviour (signed overflow of `limit--`) on every nonempty string. -/
theorem C46_limit_overflow (s a b : YStr) (sb ab : List Byte) (hs : s.Holds sb) (ha : a.Holds ab) (hne : ab ≠ [])
    (hs0 : sb ≠ []) (f : Nat) : strReplaceMax (f + 1) s a b (BitVec.intMin 64) = some .ub := by
  have hal := List.length_pos_iff.2 hne
  have hsl := List.length_pos_iff.2 hs0
  have hm : (BitVec.intMin 64).toInt = -2 ^ 63 := by decide
  rw [strReplaceMax, ha.len, if_neg (by omega), hs.len, hm, replMaxLoop, hs.len, ha.len, if_pos hsl]
  have hbb : (ByteBuffer.new sb.length).Holds (([] : List Byte).map some) := by
    constructor <;> simp [ByteBuffer.new]; omega
  have key : (if ab.length ≤ sb.length - 0 then
      Run.bind (some (s.sub 0 ab.length)) fun x => Run.bind (some (a.sub 0 ab.length)) fun y =>
        some (.ok (decide (x = y) && decide ((-2 ^ 63 : Int) > 0)))
      else some (.ok false)) = some (.ok false) := by
    by_cases hl : ab.length ≤ sb.length - 0
    · obtain ⟨h1, h2, _⟩ := hs.cmp ha (i := 0) (by omega)
      rw [ha.len] at h1 h2
      rw [if_pos hl, h1, h2]; simp
    · rw [if_neg hl]
  obtain ⟨bb1, hb1, _⟩ := addByte_step hbb sb[0]
  rw [key]
  simp only [Run.bind_ok, Bool.false_eq_true, if_false]
  rw [hs.at hsl, Run.bind_ok, hb1]
  rfl

/-! ## C47: count -/

/-- C47: `s.count(t)` for nonempty `t` terminates and returns the number of leftmost non-overlapping occurrences (one less than the
number of pieces between them).  Missing: the empty needle (`C47_count_empty`). -/
theorem C47_count_partial (h n : YStr) (hb nb : List Byte) (hh : h.Holds hb) (hn : n.Holds nb) (hne : nb ≠ [])
    (ps : List (List Byte)) (hcut : Cut nb hb ps) (f : Nat) (hf : hb.length < f) :
    strCount f h n = some (.ok (ps.length - 1)) := by
  rw [strCount, countLoop_spec hh hn hne f 0 0 ps (by omega) (by omega) (by simpa using hcut)]
  simp

/-- Case: `'aaa'.count('aa') == 1`. -/
example : strCount 9 (YStr.heap [97, 97, 97]) (YStr.heap [97, 97]) = some (.ok 1) := by decide

/-- C47 is false for the empty needle: `s.count('')` never terminates. -/
theorem C47_count_empty (h n : YStr) (hb : List Byte) (hh : h.Holds hb) (hn : n.Holds []) : ∀ f, strCount f h n = none := by
  suffices H : ∀ f c, countLoop h n f 0 c = none from fun f => H f 0
  intro f
  induction f with
  | zero => intro c; rfl
  | succ f ih =>
    intro c
    rw [countLoop, hn.len, hh.len, if_pos (by simp)]
    obtain ⟨h1, h2, _⟩ := hh.cmp hn (i := 0) (by simp)
    rw [hn.len] at h1 h2
    rw [h1, h2]
    simpa using ih _

/-! ## C48: split -/

/-- C48: `s.split(t)` for nonempty `t` terminates and returns the pieces between the leftmost non-overlapping occurrences of `t`,
except that the last piece lacks its last `len t - 1` bytes. -/
theorem C48_split_actual (h n : YStr) (hb nb : List Byte) (hh : h.Holds hb) (hn : n.Holds nb) (hne : nb ≠ [])
    (ps : List (List Byte)) (l : List Byte) (hcut : Cut nb hb (ps ++ [l])) (f : Nat) (hf : hb.length < f) :
    ∃ out, strSplit f h n = some (.ok out) ∧ HoldAll out (ps ++ [l.take (l.length - (nb.length - 1))]) := by
  have hnl := List.length_pos_iff.2 hne
  rw [strSplit, hn.len, if_neg (by omega)]
  obtain ⟨q, qs, hq⟩ := List.exists_cons_of_ne_nil hcut.ne_nil
  rw [hq] at hcut
  obtain ⟨out, h1, h2⟩ := splitLoop_spec hh hn hne f 0 0 [] [] q qs le_rfl (by omega) (by omega) (by omega) (by simpa using hcut) .nil
  refine ⟨out, h1, ?_⟩
  simp only [List.nil_append, Nat.sub_self, List.take_zero] at h2
  rw [← hq] at h2
  simpa [chopLast] using h2

/-- C48 (with an argument), the part that holds: for separators of one byte the pieces are exactly those between the occurrences;
joining them with the separator gives the string back, and no piece contains the separator.  Missing: longer separators
(`C48_split_loses_bytes`). -/
theorem C48_split_partial (h n : YStr) (hb : List Byte) (c : Byte) (hh : h.Holds hb) (hn : n.Holds [c]) (f : Nat) (hf : hb.length < f) :
    ∃ out ps, strSplit f h n = some (.ok out) ∧ HoldAll out ps ∧ Cut [c] hb ps ∧ [c].intercalate ps = hb ∧ ∀ p ∈ ps, c ∉ p := by
  obtain ⟨ps, hcut, _⟩ := Cut.exists_unique (a := [c]) (by simp) hb
  have hps : ps = ps.dropLast ++ [ps.getLast hcut.ne_nil] := (List.dropLast_append_getLast _).symm
  obtain ⟨out, h1, h2⟩ := C48_split_actual h n hb [c] hh hn (by simp) ps.dropLast (ps.getLast hcut.ne_nil) (by rw [← hps]; exact hcut) f hf
  refine ⟨out, ps, h1, ?_, hcut, hcut.join, fun p hp hc => hcut.pieces (by simp) p hp ?_⟩
  · simp only [List.length_singleton, Nat.sub_self, Nat.sub_zero, List.take_length] at h2
    rwa [← hps] at h2
  · obtain ⟨x, y, rfl⟩ := List.append_of_mem hc
    exact ⟨x, y, by simp⟩

/-- C48 is false for longer separators: `'a--b'.split('--')` is `['a', '']`. -/
theorem C48_split_loses_bytes :
    strSplit 9 (YStr.heap [97, 45, 45, 98]) (YStr.heap [45, 45]) = some (.ok [YStr.heap [97], YStr.heap []]) ∧
      Cut [45, 45] [97, 45, 45, 98] [[97], [98]] := by
  refine ⟨by decide, ?_⟩
  exact Cut.cons [97] [98] [[98]] (by decide) (.last _ (by decide))

/-- C48: an empty separator is a ValueError. -/
theorem C48_split_empty (h n : YStr) (hn : n.Holds []) (f : Nat) : strSplit f h n = some .valueError := by
  rw [strSplit, hn.len]; rfl

/-- C48 (without argument): `s.split()` returns the maximal whitespace-free runs of `s` in order. -/
theorem C48_split_default (s : YStr) (bs : List Byte) (h : s.Holds bs) (ws : List (List Byte)) (hw : Words bs ws) (f : Nat)
    (hf : bs.length + 2 ≤ f) : ∃ out, strSplitWs f s = some (.ok out) ∧ HoldAll out ws := by
  obtain ⟨out, h1, h2⟩ := splitWsLoop_spec h f 0 [] [] ws (by omega) (by omega) (by simpa using hw) .nil
  exact ⟨out, h1, by simpa using h2⟩

/-- C48: the decomposition into words exists and is unique. -/
theorem C48_words_exists_unique (s : List Byte) : ∃! ws, Words s ws := Words.exists_unique s

/-- Case: `' ab  c'.split() == ['ab', 'c']`, and one-byte separators. -/
example : strSplitWs 9 (YStr.heap [32, 97, 98, 32, 32, 99]) = some (.ok [YStr.heap [97, 98], YStr.heap [99]]) ∧
    strSplit 9 (YStr.heap [97, 44, 98]) (YStr.heap [44]) = some (.ok [YStr.heap [97], YStr.heap [98]]) ∧
    Words [32, 97, 98, 32, 32, 99] [[97, 98], [99]] := by
  refine ⟨by decide, by decide, ?_⟩
  exact Words.cons [32] [97, 98] [32, 32, 99] [[99]] (by simp [IsSpace]) (by simp) (by simp [IsSpace]) (by simp [IsSpace])
    (Words.cons [32, 32] [99] [] [] (by simp [IsSpace]) (by simp) (by simp [IsSpace]) (by simp) (.nil _ (by simp)))

/-! ## C49: trimming -/

/-- `t` is `s` without its leading bytes satisfying `P`. -/
def LTrimmed (P : Byte → Prop) (s t : List Byte) : Prop := ∃ l, s = l ++ t ∧ (∀ c ∈ l, P c) ∧ ∀ c, t.head? = some c → ¬ P c
/-- `t` is `s` without its trailing bytes satisfying `P`. -/
def RTrimmed (P : Byte → Prop) (s t : List Byte) : Prop := ∃ r, s = t ++ r ∧ (∀ c ∈ r, P c) ∧ ∀ c, t.getLast? = some c → ¬ P c

theorem ltrimmed_dropWhile (s : List Byte) : LTrimmed IsSpace s (s.dropWhile isWs) :=
  ⟨s.takeWhile isWs, (List.takeWhile_append_dropWhile).symm, fun c hc => (isWs_iff c).1 (List.mem_takeWhile_imp hc),
    fun c hc => (isWs_not_iff c).1 (dropWhile_head s c hc)⟩

theorem rtrimmed_rdropWhile (s : List Byte) : RTrimmed IsSpace s (s.rdropWhile isWs) := by
  obtain ⟨l, h1, h2, h3⟩ := ltrimmed_dropWhile s.reverse
  refine ⟨l.reverse, ?_, fun c hc => h2 c (by simpa using hc), fun c hc => h3 c ?_⟩
  · rw [List.rdropWhile, ← List.reverse_append, ← h1, List.reverse_reverse]
  · rw [List.rdropWhile, List.getLast?_reverse] at hc; exact hc

theorem strLtrimWs_eq {s : YStr} {bs : List Byte} (h : s.Holds bs) (f : Nat) (hf : bs.length < f) :
    ∃ p, strLtrimWs f s = some (.ok p) ∧ p.Holds (bs.dropWhile isWs) := by
  obtain ⟨e, h1, _, h3, h4⟩ := ltrimWsLoop_spec h f 0 (by omega) (by omega)
  obtain ⟨p, hp1, hp2⟩ := h.piece h3 le_rfl
  refine ⟨p, ?_, ?_⟩
  · rw [strLtrimWs, h1, Run.bind_ok, YStr.piece, h.len, hp1]
  · rw [List.drop_zero] at h4
    rw [h4, List.take_of_length_le (by rw [← h4]; simp)] at hp2
    exact hp2

theorem strRtrimWs_eq {s : YStr} {bs : List Byte} (h : s.Holds bs) : ∃ p, strRtrimWs s = .ok p ∧ p.Holds (bs.rdropWhile isWs) := by
  obtain ⟨e, h1, h2, h3⟩ := rtrimWsLoop_spec h bs.length le_rfl
  obtain ⟨p, hp1, hp2⟩ := h.piece (Nat.zero_le e) h2
  refine ⟨p, ?_, ?_⟩
  · rw [strRtrimWs, h.len, h1, Out.bind_ok, YStr.piece, hp1]
  · rw [List.take_length] at h3
    simpa [h3] using hp2

/-- C49: `s.ltrim()` terminates and removes exactly the leading whitespace. -/
theorem C49_ltrim_default (s : YStr) (bs : List Byte) (h : s.Holds bs) (f : Nat) (hf : bs.length < f) :
    ∃ p t, strLtrimWs f s = some (.ok p) ∧ p.Holds t ∧ LTrimmed IsSpace bs t :=
  let ⟨p, h1, h2⟩ := strLtrimWs_eq h f hf
  ⟨p, _, h1, h2, ltrimmed_dropWhile bs⟩

/-- C49: `s.rtrim()` terminates and removes exactly the trailing whitespace. -/
theorem C49_rtrim_default (s : YStr) (bs : List Byte) (h : s.Holds bs) :
    ∃ p t, strRtrimWs s = .ok p ∧ p.Holds t ∧ RTrimmed IsSpace bs t :=
  let ⟨p, h1, h2⟩ := strRtrimWs_eq h
  ⟨p, _, h1, h2, rtrimmed_rdropWhile bs⟩

theorem trim_bounds {s : YStr} {bs : List Byte} (h : s.Holds bs) (f : Nat) (hf : bs.length < f) :
    ∃ st e, ltrimWsLoop s f 0 = some (.ok st) ∧ rtrimWsLoop s s.len = .ok e ∧ st ≤ bs.length ∧ e ≤ bs.length ∧
      bs.drop st = bs.dropWhile isWs ∧ bs.take e = bs.rdropWhile isWs := by
  obtain ⟨st, h1, _, h3, h4⟩ := ltrimWsLoop_spec h f 0 (by omega) (by omega)
  obtain ⟨e, g1, g2, g3⟩ := rtrimWsLoop_spec h bs.length le_rfl
  exact ⟨st, e, h1, by rw [h.len, g1], h3, g2, by simpa using h4, by simpa using g3⟩

/-- C49 (`s.trim()`), the part that holds: a string which is empty or has a byte other than whitespace is returned without its
leading and trailing whitespace.  Missing: nonempty strings of whitespace only (`C49_trim_blank`). -/
theorem C49_trim_default_partial (s : YStr) (bs : List Byte) (h : s.Holds bs) (hbl : bs = [] ∨ ∃ c ∈ bs, ¬ IsSpace c) (f : Nat)
    (hf : bs.length < f) :
    ∃ p m t, strTrimWs f s = some (.ok p) ∧ p.Holds t ∧ LTrimmed IsSpace bs m ∧ RTrimmed IsSpace m t := by
  obtain ⟨st, e, h1, h2, h3, h4, h5, h6⟩ := trim_bounds h f hf
  have hst : st ≤ e := by
    by_contra hlt
    push Not at hlt
    rcases hbl with rfl | ⟨c, hc, hcs⟩
    · simp at h3; omega
    · obtain ⟨l, hl1, hl2, _⟩ := ltrimmed_dropWhile bs
      obtain ⟨r, hr1, hr2, _⟩ := rtrimmed_rdropWhile bs
      rw [← h5] at hl1
      rw [← h6] at hr1
      have hll : l = bs.take st := by
        have := (List.take_append_drop st bs).trans hl1
        exact (List.append_cancel_right this).symm
      have hrr : r = bs.drop e := by
        have := (List.take_append_drop e bs).trans hr1
        exact (List.append_cancel_left this).symm
      obtain ⟨k, hk, rfl⟩ := List.getElem_of_mem hc
      rcases Nat.lt_or_ge k st with hks | hks
      · exact hcs (hl2 _ (by rw [hll]; exact List.mem_take_iff_getElem.2 ⟨k, by omega, rfl⟩))
      · exact hcs (hr2 _ (by rw [hrr]; exact List.mem_drop_iff_getElem.2 ⟨k - e, by omega, by congr 1; omega⟩))
  obtain ⟨p, hp1, hp2⟩ := h.piece hst h4
  refine ⟨p, bs.dropWhile isWs, _, ?_, hp2, ltrimmed_dropWhile bs, ?_⟩
  · rw [strTrimWs, h1, Run.bind_ok, h2, Run.bind_ok, YStr.piece, hp1]
  · obtain ⟨r, hr1, hr2, hr3⟩ := rtrimmed_rdropWhile bs
    rw [← h5]
    rw [← h6] at hr1 hr3
    have hrr : r = bs.drop e := (List.append_cancel_left ((List.take_append_drop e bs).trans hr1)).symm
    refine ⟨bs.drop e, ?_, by rw [← hrr]; exact hr2, fun c hc => hr3 c ?_⟩
    · conv_lhs => rw [← List.take_append_drop (e - st) (bs.drop st)]
      rw [List.drop_drop, show st + (e - st) = e by omega]
    · rw [← List.drop_take] at hc
      rw [List.getLast?_drop] at hc
      split at hc
      · simp at hc
      · exact hc

/-- C49 is false for `trim()` on nonempty strings of whitespace: undefined behaviour (the start passes the end). -/
theorem C49_trim_blank (s : YStr) (bs : List Byte) (h : s.Holds bs) (hne : bs ≠ []) (hbl : ∀ c ∈ bs, IsSpace c) (f : Nat)
    (hf : bs.length < f) : strTrimWs f s = some .ub := by
  obtain ⟨st, e, h1, h2, h3, h4, h5, h6⟩ := trim_bounds h f hf
  have hall : ∀ c ∈ bs, isWs c = true := fun c hc => (isWs_iff c).2 (hbl c hc)
  rw [List.dropWhile_eq_nil_iff.2 hall] at h5
  rw [List.rdropWhile_eq_nil_iff.2 hall] at h6
  have hl := List.length_pos_iff.2 hne
  have e1 : bs.length ≤ st := by simpa using h5
  have e2 : e = 0 := by
    have := congrArg List.length h6
    simp at this
    rcases this with h | h
    · exact h
    · exact absurd h hne
  rw [strTrimWs, h1, Run.bind_ok, h2, Run.bind_ok, YStr.piece, YStr.piece_bad s (by omega)]

/-- Case: `' a '.trim() == 'a'`, `' '.trim()` is undefined behaviour. -/
example : strTrimWs 9 (YStr.heap [32, 97, 32]) = some (.ok (YStr.heap [97])) ∧ strTrimWs 9 (YStr.heap [32]) = some .ub ∧
    strLtrimWs 9 (YStr.heap [32]) = some (.ok (YStr.heap [])) ∧ strRtrimWs (YStr.heap [9, 98, 10]) = .ok (YStr.heap [9, 98]) := by decide

/-- C49: `s.ltrim(n)` for nonempty `n` removes all leading repetitions of `n`. -/
theorem C49_ltrim (h n : YStr) (hb nb : List Byte) (hh : h.Holds hb) (hn : n.Holds nb) (hne : nb ≠ []) (f : Nat) (hf : hb.length < f) :
    ∃ p t k, strLtrim f h n = some (.ok p) ∧ p.Holds t ∧ hb = repeatBytes k nb ++ t ∧ ¬ nb <+: t := by
  obtain ⟨e, k, h1, h2, h3, h4, h5⟩ := ltrimLoop_spec hh hn hne f 0 (by omega) (by omega)
  obtain ⟨p, hp1, hp2⟩ := hh.piece h3 le_rfl
  refine ⟨p, hb.drop e, k, ?_, ?_, by simpa using h4, h5⟩
  · rw [strLtrim, h1, Run.bind_ok, YStr.piece, hh.len, hp1]
  · rwa [List.take_of_length_le (by simp)] at hp2

/-- C49: `s.rtrim(n)` for nonempty `n` removes all trailing repetitions of `n`. -/
theorem C49_rtrim (h n : YStr) (hb nb : List Byte) (hh : h.Holds hb) (hn : n.Holds nb) (hne : nb ≠ []) (f : Nat) (hf : hb.length < f) :
    ∃ p t k, strRtrim f h n = some (.ok p) ∧ p.Holds t ∧ hb = t ++ repeatBytes k nb ∧ ¬ nb <:+ t := by
  obtain ⟨e, k, h1, h2, h4, h5⟩ := rtrimLoop_spec hh hn hne f hb.length le_rfl (by omega)
  obtain ⟨p, hp1, hp2⟩ := hh.piece (Nat.zero_le e) (by omega : e ≤ hb.length)
  refine ⟨p, hb.take e, k, ?_, by simpa using hp2, by simpa using h4, h5⟩
  rw [strRtrim, hh.len, h1, Run.bind_ok, YStr.piece, hp1]

/-- C49 (`s.trim(n)`), the part that holds: `s.trim(n)` for nonempty `n` either returns `s` without its leading and trailing
repetitions of `n`, or – exactly if the repetitions at both ends overlap – is undefined behaviour (`C49_trim_overlap`). -/
theorem C49_trim_partial (h n : YStr) (hb nb : List Byte) (hh : h.Holds hb) (hn : n.Holds nb) (hne : nb ≠ []) (f : Nat) (hf : hb.length < f) :
    (∃ p t k j, strTrim f h n = some (.ok p) ∧ p.Holds t ∧ hb = repeatBytes k nb ++ t ++ repeatBytes j nb ∧ ¬ nb <+: t ∧ ¬ nb <:+ t) ∨
    (strTrim f h n = some .ub ∧ ∃ k j u v, hb = repeatBytes k nb ++ u ∧ hb = v ++ repeatBytes j nb ∧ ¬ nb <+: u ∧ ¬ nb <:+ v ∧
      hb.length < (k + j) * nb.length) := by
  obtain ⟨st, k, h1, h2, h3, h4, h5⟩ := ltrimLoop_spec hh hn hne f 0 (by omega) (by omega)
  obtain ⟨e, j, g1, g2, g4, g5⟩ := rtrimLoop_spec hh hn hne f hb.length le_rfl (by omega)
  simp only [List.drop_zero, Nat.zero_add] at h4 h2
  rw [List.take_length] at g4
  by_cases hse : st ≤ e
  · left
    obtain ⟨p, hp1, hp2⟩ := hh.piece hse (by omega : e ≤ hb.length)
    refine ⟨p, _, k, j, ?_, hp2, ?_, ?_, ?_⟩
    · rw [strTrim, h1, Run.bind_ok, hh.len, g1, Run.bind_ok, YStr.piece, hp1]
    · have e2 : repeatBytes j nb = hb.drop e := (List.append_cancel_left ((List.take_append_drop e hb).trans g4)).symm
      rw [e2, List.append_assoc]
      have : (hb.drop st).take (e - st) ++ hb.drop e = hb.drop st := by
        conv_rhs => rw [← List.take_append_drop (e - st) (hb.drop st)]
        rw [List.drop_drop, show st + (e - st) = e by omega]
      rw [this]; exact h4
    · exact fun hp => h5 (hp.trans (List.take_prefix _ _))
    · rw [← List.drop_take]
      exact fun hp => g5 (hp.trans (List.drop_suffix _ _))
  · right
    refine ⟨?_, k, j, _, _, h4, g4, h5, g5, ?_⟩
    · rw [strTrim, h1, Run.bind_ok, hh.len, g1, Run.bind_ok, YStr.piece, YStr.piece_bad h (by omega)]
    · rw [Nat.add_mul]; omega

/-- C49 is false for `trim(n)`: `'a'.trim('a')` and `'aaa'.trim('aa')` are undefined behaviour. -/
theorem C49_trim_overlap : strTrim 9 (YStr.heap [97]) (YStr.heap [97]) = some .ub ∧
    strTrim 9 (YStr.heap [97, 97, 97]) (YStr.heap [97, 97]) = some .ub := by decide

/-- C49 is false for the empty needle: `ltrim('')`, `rtrim('')` and `trim('')` never terminate. -/
theorem C49_trim_empty (h n : YStr) (hb : List Byte) (hh : h.Holds hb) (hn : n.Holds []) (f : Nat) :
    strLtrim f h n = none ∧ strRtrim f h n = none ∧ strTrim f h n = none := by
  have hl : ∀ f, ltrimLoop h n f 0 = none := by
    intro f
    induction f with
    | zero => rfl
    | succ f ih =>
      obtain ⟨h1, h2, _⟩ := hh.cmp hn (i := 0) (by simp)
      rw [hn.len] at h1 h2
      rw [ltrimLoop, hn.len, if_pos (by simp), h1, h2]
      simpa using ih
  have hr : ∀ f, rtrimLoop h n f h.len = none := by
    intro f
    induction f with
    | zero => rfl
    | succ f ih =>
      obtain ⟨h1, h2, _⟩ := hh.cmp hn (i := h.len) (by rw [hh.len]; simp)
      rw [hn.len] at h1 h2
      rw [rtrimLoop, hn.len, if_pos (by simp)]
      simp only [List.length_nil, Nat.sub_zero] at h1 h2 ⊢
      rw [h1, h2]
      simpa using ih
  refine ⟨by rw [strLtrim, hl]; rfl, by rw [strRtrim, hr]; rfl, by rw [strTrim, hl]; rfl⟩

/-- Case: `'xxaxx'.trim('x') == 'a'`. -/
example : strTrim 9 (YStr.heap [120, 120, 97, 120]) (YStr.heap [120]) = some (.ok (YStr.heap [97])) := by decide

/-! ## C50: startswith, endswith, rep, toupper, tolower -/

theorem cmpLoop_spec {h n : YStr} {hb nb : List Byte} (hh : h.Holds hb) (hn : n.Holds nb) (off : Nat) (ho : off + nb.length ≤ hb.length) :
    ∀ k i, i + k = nb.length → cmpLoop h n off k i = .ok (decide (nb.drop i <+: hb.drop (off + i))) := by
  intro k
  induction k with
  | zero => intro i hi; rw [cmpLoop, List.drop_eq_nil_of_le (by omega)]; simp
  | succ k ih =>
    intro i hi
    rw [cmpLoop, hh.at (by omega : i + off < hb.length), Out.bind_ok, hn.at (by omega : i < nb.length), Out.bind_ok]
    have hpc : nb.drop i <+: hb.drop (off + i) ↔ nb[i] = hb[off + i] ∧ nb.drop (i + 1) <+: hb.drop (off + (i + 1)) := by
      rw [List.drop_eq_getElem_cons (by omega : i < nb.length), List.drop_eq_getElem_cons (by omega : off + i < hb.length), List.cons_prefix_cons]
      rfl
    have he : hb[i + off] = hb[off + i] := by congr 1; omega
    rw [he]
    by_cases hc : hb[off + i] = nb[i]
    · rw [if_neg (by simpa using hc), ih (i + 1) (by omega)]
      congr 1
      rw [decide_eq_decide, hpc]
      exact ⟨fun h => ⟨hc.symm, h⟩, fun h => h.2⟩
    · rw [if_pos hc]
      congr 1
      exact (decide_eq_false fun h => hc (hpc.1 h).1.symm).symm

/-- C50: `startswith` decides "is a prefix". -/
theorem C50_startswith (h n : YStr) (hb nb : List Byte) (hh : h.Holds hb) (hn : n.Holds nb) :
    strStartswith h n = .ok (decide (nb <+: hb)) := by
  rw [strStartswith, hh.len, hn.len]
  by_cases hl : hb.length < nb.length
  · rw [if_pos hl]; simp [not_prefix_of_short hl]
  · rw [if_neg hl, cmpLoop_spec hh hn 0 (by omega) _ 0 (by omega)]; simp

/-- C50: `endswith` decides "is a suffix". -/
theorem C50_endswith (h n : YStr) (hb nb : List Byte) (hh : h.Holds hb) (hn : n.Holds nb) :
    strEndswith h n = .ok (decide (nb <:+ hb)) := by
  rw [strEndswith, hh.len, hn.len]
  by_cases hl : hb.length < nb.length
  · rw [if_pos hl]
    have : ¬ nb <:+ hb := fun hs => absurd hs.length_le (by omega)
    simp [this]
  · rw [if_neg hl, cmpLoop_spec hh hn (hb.length - nb.length) (by omega) _ 0 (by omega)]
    congr 1
    rw [decide_eq_decide, List.drop_zero, Nat.add_zero]
    constructor
    · intro hp
      have := hp.eq_of_length (by simp; omega)
      rw [this]; exact List.drop_suffix _ _
    · intro hs
      rw [← List.suffix_iff_eq_drop.1 hs]

/-- Case: `'abc'.startswith('ab')`, `'abc'.endswith('bc')`. -/
example : strStartswith exAbc (YStr.heap [97, 98]) = .ok true ∧ strEndswith exAbc (YStr.heap [98, 99]) = .ok true ∧
    strEndswith exAbc (YStr.heap [98]) = .ok false := by decide

theorem mapLoop_spec {s : YStr} {bs : List Byte} (h : s.Holds bs) (g : Byte → Byte) :
    ∀ k i, i + k = bs.length → mapLoop s g k i = .ok ((bs.drop i).map g) := by
  intro k
  induction k with
  | zero => intro i hi; rw [List.drop_eq_nil_of_le (by omega)]; rfl
  | succ k ih =>
    intro i hi
    rw [mapLoop, h.at (by omega : i < bs.length), Out.bind_ok, ih (i + 1) (by omega), Out.bind_ok,
      List.drop_eq_getElem_cons (by omega : i < bs.length), List.map_cons]

theorem upperC_eq (c : Byte) : upperC c = asciiUpper c := by revert c; decide
theorem lowerC_eq (c : Byte) : lowerC c = asciiLower c := by revert c; decide

/-- C50: `toupper` maps every byte to its ASCII upper case. -/
theorem C50_toupper (s : YStr) (bs : List Byte) (h : s.Holds bs) :
    ∃ p, strToupper s = .ok p ∧ p.Holds (bs.map asciiUpper) := by
  rw [strToupper, mapLoop_spec h upperC s.len 0 (by rw [h.len]; omega), Out.bind_ok]
  refine ⟨_, rfl, ?_⟩
  rw [List.drop_zero, show upperC = asciiUpper from funext upperC_eq]
  exact YStr.holds_heap _

/-- C50: `tolower` maps every byte to its ASCII lower case. -/
theorem C50_tolower (s : YStr) (bs : List Byte) (h : s.Holds bs) :
    ∃ p, strTolower s = .ok p ∧ p.Holds (bs.map asciiLower) := by
  rw [strTolower, mapLoop_spec h lowerC s.len 0 (by rw [h.len]; omega), Out.bind_ok]
  refine ⟨_, rfl, ?_⟩
  rw [List.drop_zero, show lowerC = asciiLower from funext lowerC_eq]
  exact YStr.holds_heap _

/-- C50: `toupper` and `tolower` are idempotent and keep the length (for the bytes they map to). -/
theorem C50_case_idempotent (bs : List Byte) :
    (bs.map asciiUpper).map asciiUpper = bs.map asciiUpper ∧ (bs.map asciiLower).map asciiLower = bs.map asciiLower ∧
    (bs.map asciiUpper).length = bs.length ∧ (bs.map asciiLower).length = bs.length ∧
    ∀ c : Byte, ¬ IsLetter c → asciiUpper c = c ∧ asciiLower c = c := by
  have hu : ∀ c, asciiUpper (asciiUpper c) = asciiUpper c := by decide
  have hl : ∀ c, asciiLower (asciiLower c) = asciiLower c := by decide
  refine ⟨by simp [hu], by simp [hl], by simp, by simp, fun c hc => ?_⟩
  unfold IsLetter at hc
  constructor
  · rw [asciiUpper, if_neg (fun h => hc (.inr h))]
  · rw [asciiLower, if_neg (fun h => hc (.inl h))]

theorem memcpy_append {m : Block Byte} {done b : List Byte} {i : Nat} (hm : m.take i = done.map some) (hi : i + b.length ≤ m.length) :
    ∃ m', m.memcpy i b = .ok m' ∧ m'.length = m.length ∧ m'.take (i + b.length) = (done ++ b).map some := by
  rw [Block.memcpy, if_pos hi]
  refine ⟨_, rfl, by simp; omega, ?_⟩
  rw [List.take_left' (by simp; omega), hm, List.map_append]

theorem repLoop_spec {s : YStr} {bs : List Byte} (h : s.Holds bs) (hne : bs ≠ []) (num : Nat) :
    ∀ f k (m : Block Byte), k ≤ num → num - k < f → m.length = num * bs.length → m.take (k * bs.length) = (repeatBytes k bs).map some →
      repLoop s (num * bs.length) f (k * bs.length) m = some (.ok ((repeatBytes num bs).map some)) := by
  have hl := List.length_pos_iff.2 hne
  intro f
  induction f with
  | zero => intro k m _ hf; omega
  | succ f ih =>
    intro k m hk hf hlen hm
    rw [repLoop]
    by_cases hlt : k < num
    · rw [if_pos (Nat.mul_lt_mul_of_pos_right hlt hl), h.sub0, Run.bind_ok]
      have hle : k * bs.length + bs.length ≤ m.length := by
        rw [hlen, show k * bs.length + bs.length = (k + 1) * bs.length by ring]; exact Nat.mul_le_mul_right _ hlt
      obtain ⟨m', h1, h2, h3⟩ := memcpy_append (b := bs) hm hle
      rw [h1, Run.bind_ok, h.len, show k * bs.length + bs.length = (k + 1) * bs.length by ring]
      refine ih (k + 1) m' (by omega) (by omega) (by omega) ?_
      rw [show (k + 1) * bs.length = k * bs.length + bs.length by ring, h3, repeatBytes_succ']
    · have : k = num := by omega
      subst this
      rw [if_neg (by omega), ← hm, List.take_of_length_le (by omega)]

/-- C50 (`rep`), the part that holds: `s.rep(n)` for nonempty `s` and `n * len s < 2^64` terminates and returns `n` copies of `s`; a
negative `n` is a ValueError.  Missing: products that wrap around (`C50_rep_wraps`); the empty string is `C50_rep_empty`. -/
theorem C50_rep_partial (s : YStr) (bs : List Byte) (h : s.Holds bs) (hne : bs ≠ []) (num : BitVec 64) (f : Nat) (hf : num.toNat < f) :
    (0 ≤ num.toInt → num.toNat * bs.length < 2 ^ 64 → strRep f s num = some (.ok ((repeatBytes num.toNat bs).map some))) ∧
    (num.toInt < 0 → strRep f s num = some .valueError) := by
  constructor
  · intro h0 hlt
    rw [strRep, if_neg (by omega), h.len]
    simp only
    rw [Nat.mod_eq_of_lt hlt]
    have := repLoop_spec h hne num.toNat f 0 (Block.malloc (num.toNat * bs.length)) (by omega) (by omega) (by simp [Block.malloc]) (by simp [repeatBytes])
    simpa using this
  · intro hneg; rw [strRep, if_pos hneg]

/-- C50: `''.rep(n)` is `''`. -/
theorem C50_rep_empty (s : YStr) (h : s.Holds []) (num : BitVec 64) (h0 : 0 ≤ num.toInt) (f : Nat) :
    strRep (f + 1) s num = some (.ok []) := by
  rw [strRep, if_neg (by omega), h.len]
  simp [repLoop, Block.malloc]

/-- C50 is false for `rep` when the size wraps around: `'abcd'.rep(2^62)` is the empty string, and
`'abc'.rep(6148914691236517206)` writes three bytes into a block of two. -/
theorem C50_rep_wraps (f : Nat) :
    strRep (f + 1) (YStr.heap [97, 98, 99, 100]) (BitVec.ofNat 64 (2 ^ 62)) = some (.ok []) ∧
    strRep (f + 1) (YStr.heap [97, 98, 99]) 6148914691236517206 = some .ub := by
  constructor
  · rw [strRep, if_neg (by decide)]
    have : (BitVec.ofNat 64 (2 ^ 62)).toNat * (YStr.heap [97, 98, 99, 100]).len % 2 ^ 64 = 0 := by decide
    simp only [this]
    rfl
  · rw [strRep, if_neg (by decide)]
    have : (6148914691236517206 : BitVec 64).toNat * (YStr.heap [97, 98, 99]).len % 2 ^ 64 = 2 := by decide
    simp only [this]
    rfl

/-- Case: `'ab'.rep(3) == 'ababab'`. -/
example : strRep 9 (YStr.heap [97, 98]) 3 = some (.ok ([97, 98, 97, 98, 97, 98].map some)) ∧
    strToupper exAbc = .ok (YStr.heap [65, 66, 67]) := by decide

/-! ## C70: isal, isnum, isalnum, isspace -/

/-- `m` applied to the bytes from the left, stopping at the first `false`. -/
def allBytes (m : Byte → Out Bool) : List Byte → Out Bool
  | [] => .ok true
  | c :: bs => (m c).bind fun r => if r then allBytes m bs else .ok false

theorem allLoop_spec {s : YStr} {bs : List Byte} (h : s.Holds bs) (m : Byte → Out Bool) :
    ∀ k i, i + k = bs.length → allLoop s m k i = allBytes m (bs.drop i) := by
  intro k
  induction k with
  | zero => intro i hi; rw [List.drop_eq_nil_of_le (by omega)]; rfl
  | succ k ih =>
    intro i hi
    rw [allLoop, h.at (by omega : i < bs.length), Out.bind_ok, List.drop_eq_getElem_cons (by omega : i < bs.length), allBytes, ih (i + 1) (by omega)]

theorem allBytes_ok {m : Byte → Out Bool} {P : Byte → Prop} [DecidablePred P] (bs : List Byte) (hm : ∀ c ∈ bs, m c = .ok (decide (P c))) :
    allBytes m bs = .ok (decide (∀ c ∈ bs, P c)) := by
  induction bs with
  | nil => simp [allBytes]
  | cons c bs ih =>
    rw [allBytes, hm c (by simp), Out.bind_ok, ih fun x hx => hm x (by simp [hx])]
    by_cases hc : P c <;> simp [hc]

instance (c : Byte) : Decidable (IsSpace c) := by unfold IsSpace; infer_instance

/-- C70: on ASCII strings `isal`, `isnum`, `isalnum` decide whether all bytes are letters, digits, letters or digits; missing: strings
with bytes from 0x80 on (`C70_is_nonascii`). -/
theorem C70_is_partial (s : YStr) (bs : List Byte) (h : s.Holds bs) (ha : ∀ c ∈ bs, c.toNat < 128) :
    strIsal s = .ok (decide (∀ c ∈ bs, IsLetter c)) ∧ strIsnum s = .ok (decide (∀ c ∈ bs, IsDigit c)) ∧
    strIsalnum s = .ok (decide (∀ c ∈ bs, IsLetter c ∨ IsDigit c)) := by
  have e : s.len = bs.length := h.len
  refine ⟨?_, ?_, ?_⟩
  · rw [strIsal, allLoop_spec h _ _ 0 (by omega), List.drop_zero, allBytes_ok (P := IsLetter)]
    intro c hc; have := ha c hc
    rw [isalphaC, if_neg (by omega)]; rfl
  · rw [strIsnum, allLoop_spec h _ _ 0 (by omega), List.drop_zero, allBytes_ok (P := IsDigit)]
    intro c hc; have := ha c hc
    rw [isdigitC, if_neg (by omega)]; rfl
  · rw [strIsalnum, allLoop_spec h _ _ 0 (by omega), List.drop_zero, allBytes_ok (P := fun c => IsLetter c ∨ IsDigit c)]
    intro c hc; have := ha c hc
    rw [isalnumC, isalphaC, if_neg (by omega), Out.bind_ok, isdigitC, if_neg (by omega), Out.bind_ok]
    congr 1
    rw [Bool.eq_iff_iff]
    simp [IsLetter, IsDigit]
    exact decide_eq_true_iff.symm

/-- C70: `isspace` decides whether all bytes are whitespace, for every string. -/
theorem C70_isspace (s : YStr) (bs : List Byte) (h : s.Holds bs) : strIsspace s = .ok (decide (∀ c ∈ bs, IsSpace c)) := by
  rw [strIsspace, allLoop_spec h _ _ 0 (by rw [h.len]; omega), List.drop_zero, allBytes_ok (P := IsSpace)]
  intro c _
  congr 1
  rw [Bool.eq_iff_iff, isWs_iff]; simp

/-- C70 is false beyond ASCII: `isal` and the others on a string beginning with a byte between 0x80 and 0xFE (such as any UTF-8
encoded letter) pass a negative value to `isalpha`, `isdigit`, `isalnum`: undefined behaviour. -/
theorem C70_is_nonascii (s : YStr) (c : Byte) (bs : List Byte) (h : s.Holds (c :: bs)) (hc : 0x80 ≤ c.toNat ∧ c.toNat < 0xFF) :
    strIsal s = .ub ∧ strIsnum s = .ub ∧ strIsalnum s = .ub := by
  have e : s.len = (c :: bs).length := h.len
  refine ⟨?_, ?_, ?_⟩
  · rw [strIsal, allLoop_spec h _ _ 0 (by omega), List.drop_zero, allBytes, isalphaC, if_pos hc]; rfl
  · rw [strIsnum, allLoop_spec h _ _ 0 (by omega), List.drop_zero, allBytes, isdigitC, if_pos hc]; rfl
  · rw [strIsalnum, allLoop_spec h _ _ 0 (by omega), List.drop_zero, allBytes, isalnumC, isalphaC, if_pos hc]; rfl

/-- Case: `'abc'.isal()`, `'a1'.isalnum()`, and `'é'.isal()` is undefined. -/
example : strIsal exAbc = .ok true ∧ strIsalnum (YStr.heap [97, 49]) = .ok true ∧ strIsal (YStr.heap [0xC3, 0xA9]) = .ub := by decide

/-! ## C51: storage does not matter -/

/-- Two outcomes that agree up to the way the resulting string is stored. -/
def SameStr (x y : Run YStr) : Prop := ∃ p q bs, x = some (.ok p) ∧ y = some (.ok q) ∧ p.Holds bs ∧ q.Holds bs

/-- C51, the part that holds: for two objects with the same bytes, whatever their storage, indexing and the methods below give the
same result.  `n`, `n'` and `b`, `b'` are further arguments with the same bytes.  Missing: slices and iteration of views with an
offset (`C44_slice_offset`, `C51_iter_offset`). -/
theorem C51_storage_partial (s s' n n' b b' : YStr) (bs nb bb : List Byte) (hs : s.Holds bs) (hs' : s'.Holds bs) (hn : n.Holds nb)
    (hn' : n'.Holds nb) (hb : b.Holds bb) (hb' : b'.Holds bb) (f : Nat) (hf : bs.length + 2 ≤ f) :
    strFind s n = strFind s' n' ∧
    strStartswith s n = strStartswith s' n' ∧ strEndswith s n = strEndswith s' n' ∧
    strIsal s = strIsal s' ∧ strIsnum s = strIsnum s' ∧ strIsalnum s = strIsalnum s' ∧ strIsspace s = strIsspace s' ∧
    SameStr (some (strToupper s)) (some (strToupper s')) ∧ SameStr (some (strTolower s)) (some (strTolower s')) ∧
    (∀ i : BitVec 64, SameStr (some (strGet s i)) (some (strGet s' i)) ∨ strGet s i = .valueError ∧ strGet s' i = .valueError) ∧
    SameStr (strLtrimWs f s) (strLtrimWs f s') ∧ SameStr (some (strRtrimWs s)) (some (strRtrimWs s')) ∧
    (nb ≠ [] → strCount f s n = strCount f s' n' ∧ SameStr (strReplace f s n b) (strReplace f s' n' b')) ∧
    (nb ≠ [] → ∃ o o' ps, strSplit f s n = some (.ok o) ∧ strSplit f s' n' = some (.ok o') ∧ HoldAll o ps ∧ HoldAll o' ps) ∧
    (∃ o o' ps, strSplitWs f s = some (.ok o) ∧ strSplitWs f s' = some (.ok o') ∧ HoldAll o ps ∧ HoldAll o' ps) := by
  have e : s.len = bs.length := hs.len
  have e' : s'.len = bs.length := hs'.len
  refine ⟨?_, ?_, ?_, ?_, ?_, ?_, ?_, ?_, ?_, ?_, ?_, ?_, ?_, ?_, ?_⟩
  · rcases C45_search s n bs nb hs hn with ⟨h1, h2⟩ | ⟨i, h1, h2, h3, h4⟩ <;>
      rcases C45_search s' n' bs nb hs' hn' with ⟨g1, g2⟩ | ⟨j, g1, g2, g3, g4⟩
    · rw [h1, g1]
    · exact absurd (g2.isInfix.trans (List.drop_suffix _ _).isInfix) h2
    · exact absurd (h2.isInfix.trans (List.drop_suffix _ _).isInfix) g2
    · rw [h1, g1]
      rcases lt_trichotomy i j with hlt | rfl | hgt
      · exact absurd h2 (g4 i hlt)
      · rfl
      · exact absurd g2 (h4 j hgt)
  · rw [C50_startswith s n bs nb hs hn, C50_startswith s' n' bs nb hs' hn']
  · rw [C50_endswith s n bs nb hs hn, C50_endswith s' n' bs nb hs' hn']
  · rw [strIsal, strIsal, allLoop_spec hs _ _ 0 (by omega), allLoop_spec hs' _ _ 0 (by omega)]
  · rw [strIsnum, strIsnum, allLoop_spec hs _ _ 0 (by omega), allLoop_spec hs' _ _ 0 (by omega)]
  · rw [strIsalnum, strIsalnum, allLoop_spec hs _ _ 0 (by omega), allLoop_spec hs' _ _ 0 (by omega)]
  · rw [strIsspace, strIsspace, allLoop_spec hs _ _ 0 (by omega), allLoop_spec hs' _ _ 0 (by omega)]
  · obtain ⟨p, h1, h2⟩ := C50_toupper s bs hs
    obtain ⟨q, g1, g2⟩ := C50_toupper s' bs hs'
    exact ⟨p, q, _, by rw [h1], by rw [g1], h2, g2⟩
  · obtain ⟨p, h1, h2⟩ := C50_tolower s bs hs
    obtain ⟨q, g1, g2⟩ := C50_tolower s' bs hs'
    exact ⟨p, q, _, by rw [h1], by rw [g1], h2, g2⟩
  · intro i
    by_cases hr : i.toInt < -(bs.length : Int) ∨ i.toInt ≥ bs.length
    · exact .inr ⟨(C44_index s bs hs i).2 hr, (C44_index s' bs hs' i).2 hr⟩
    · left
      obtain ⟨k, hk, hi⟩ : ∃ k : Nat, k < bs.length ∧ (i.toInt = k ∨ i.toInt = (k : Int) - bs.length) := by
        by_cases h0 : 0 ≤ i.toInt
        · exact ⟨i.toInt.toNat, by omega, by omega⟩
        · exact ⟨(i.toInt + bs.length).toNat, by omega, by omega⟩
      obtain ⟨p, h1, h2⟩ := (C44_index s bs hs i).1 k hk hi
      obtain ⟨q, g1, g2⟩ := (C44_index s' bs hs' i).1 k hk hi
      exact ⟨p, q, _, by rw [h1], by rw [g1], h2, g2⟩
  · obtain ⟨p, h1, h2⟩ := strLtrimWs_eq hs f (by omega)
    obtain ⟨q, g1, g2⟩ := strLtrimWs_eq hs' f (by omega)
    exact ⟨p, q, _, h1, g1, h2, g2⟩
  · obtain ⟨p, h1, h2⟩ := strRtrimWs_eq hs
    obtain ⟨q, g1, g2⟩ := strRtrimWs_eq hs'
    exact ⟨p, q, _, by rw [h1], by rw [g1], h2, g2⟩
  · intro hne
    obtain ⟨ps, hcut, _⟩ := Cut.exists_unique hne bs
    refine ⟨?_, ?_⟩
    · rw [C47_count_partial s n bs nb hs hn hne ps hcut f (by omega), C47_count_partial s' n' bs nb hs' hn' hne ps hcut f (by omega)]
    · obtain ⟨p, h1, h2⟩ := C46_replace s n b bs nb bb hs hn hb hne ps hcut f (by omega)
      obtain ⟨q, g1, g2⟩ := C46_replace s' n' b' bs nb bb hs' hn' hb' hne ps hcut f (by omega)
      exact ⟨p, q, _, h1, g1, h2, g2⟩
  · intro hne
    obtain ⟨ps, hcut, _⟩ := Cut.exists_unique hne bs
    have hps : ps = ps.dropLast ++ [ps.getLast hcut.ne_nil] := (List.dropLast_append_getLast _).symm
    rw [hps] at hcut
    obtain ⟨o, h1, h2⟩ := C48_split_actual s n bs nb hs hn hne _ _ hcut f (by omega)
    obtain ⟨o', g1, g2⟩ := C48_split_actual s' n' bs nb hs' hn' hne _ _ hcut f (by omega)
    exact ⟨o, o', _, h1, g1, h2, g2⟩
  · obtain ⟨ws, hw, _⟩ := Words.exists_unique bs
    obtain ⟨o, h1, h2⟩ := C48_split_default s bs hs ws hw f hf
    obtain ⟨o', g1, g2⟩ := C48_split_default s' bs hs' ws hw f hf
    exact ⟨o, o', _, h1, g1, h2, g2⟩

/-- Case: the literal-backed view `"ru"` and its heap copy meet the hypotheses. -/
example : exView.Holds [114, 117] ∧ (YStr.heap [114, 117]).Holds [114, 117] := ⟨exView_holds, YStr.holds_heap _⟩

/-- C51 is false for iteration: `for c <- true.tostr()[1:3]` starts with `'t'`, on a heap copy with `'r'`. -/
theorem C51_iter_offset : exView.Holds [114, 117] ∧
    (∃ p, strIterNth exView 0 = some (.ok p) ∧ p.Holds [116]) ∧ ∃ q, strIterNth (YStr.heap [114, 117]) 0 = some (.ok q) ∧ q.Holds [114] :=
  ⟨exView_holds, ⟨{ exView with start := 0, stop := 1 }, by decide, by constructor <;> decide⟩, ⟨YStr.heap [114], by decide, YStr.holds_heap _⟩⟩

end Yasl
