import Verif.Model.Str
import Verif.Spec.Str
import Verif.Props.ByteBuffer
import Mathlib.Data.List.Basic
import Mathlib.Data.List.DropRight
import Mathlib.Data.List.Infix
import Mathlib.Data.List.Forall2
import Mathlib.Tactic.Ring
/-! # Lemmas on string views and on `Cut`, `Words` -/
namespace Yasl

/-- The bytes a string denotes. -/
def YStr.bytes (s : YStr) : List Byte := (s.mem.drop s.start).take s.len

/-- `s` is a well-formed string object holding the bytes `bs`: the view is inside of its block, and a heap string starts at the
beginning of its block (every constructor of heap strings passes start 0). -/
structure YStr.Holds (s : YStr) (bs : List Byte) : Prop where
  le : s.start ≤ s.stop
  bound : s.stop ≤ s.mem.length
  heap : s.onHeap = true → s.start = 0
  eq : s.bytes = bs

theorem YStr.Holds.len {s : YStr} {bs : List Byte} (h : s.Holds bs) : s.len = bs.length := by
  have := h.bound; have := h.le
  rw [← h.eq, YStr.bytes, List.length_take, List.length_drop, YStr.len]; omega

theorem YStr.Holds.sub {s : YStr} {bs : List Byte} (h : s.Holds bs) {i n : Nat} (hi : i + n ≤ bs.length) :
    s.sub i n = .ok ((bs.drop i).take n) := by
  have hl := h.len; have := h.bound; have := h.le
  rw [YStr.sub, if_pos (by unfold YStr.len at hl; omega), ← h.eq, YStr.bytes, List.drop_take, List.take_take, List.drop_drop,
    Nat.min_eq_left (by omega)]

theorem YStr.Holds.sub0 {s : YStr} {bs : List Byte} (h : s.Holds bs) : s.sub 0 s.len = .ok bs := by
  rw [h.sub (by rw [h.len]; omega), h.len]; simp

theorem YStr.Holds.at {s : YStr} {bs : List Byte} (h : s.Holds bs) {i : Nat} (hi : i < bs.length) :
    s.at i = .ok bs[i] := by
  have hl := h.len; have hb := h.bound; have := h.le
  have hm : s.start + i < s.mem.length := by unfold YStr.len at hl; omega
  rw [YStr.at, List.getElem?_eq_getElem hm]
  have := h.eq
  subst this
  simp [YStr.bytes]

theorem YStr.holds_heap (bs : List Byte) : (YStr.heap bs).Holds bs := by
  constructor <;> simp [YStr.heap, YStr.bytes, YStr.len]

theorem YStr.holds_lit (bs : List Byte) : (YStr.lit bs).Holds bs := by
  constructor <;> simp [YStr.lit, YStr.bytes, YStr.len]

theorem YStr.Holds.piece {s : YStr} {bs : List Byte} (h : s.Holds bs) {a b : Nat} (hab : a ≤ b) (hb : b ≤ bs.length) :
    ∃ p, s.substring ((s.start + a : Nat) : Int) ((s.start + b : Nat) : Int) = .ok p ∧ p.Holds ((bs.drop a).take (b - a)) := by
  have hl := h.len; have hbd := h.bound; have hle := h.le
  have hbb : s.start + b ≤ s.mem.length := by unfold YStr.len at hl; omega
  have hbs : ((s.mem.drop (s.start + a)).take (s.start + b - (s.start + a))) = (bs.drop a).take (b - a) := by
    rw [← h.eq, YStr.bytes, List.drop_take, List.take_take, List.drop_drop, Nat.min_eq_left (by omega)]
    congr 1; omega
  rw [YStr.substring, if_neg (by omega)]
  by_cases hh : s.onHeap = true
  · rw [if_pos hh, if_pos (by rw [Int.toNat_natCast]; exact hbb)]
    refine ⟨_, rfl, ?_⟩
    simp only [Int.toNat_natCast]
    rw [hbs]; exact YStr.holds_heap _
  · rw [if_neg hh]
    refine ⟨_, rfl, ?_⟩
    refine ⟨?_, ?_, fun hc => absurd hc hh, ?_⟩
    · simp only [Int.toNat_natCast]; omega
    · simp only [Int.toNat_natCast]; exact hbb
    · simp only [YStr.bytes, YStr.len, Int.toNat_natCast]; exact hbs

theorem YStr.piece_bad (s : YStr) {a b : Nat} (hab : b < a) :
    s.substring ((s.start + a : Nat) : Int) ((s.start + b : Nat) : Int) = .ub := by
  rw [YStr.substring, if_pos (by omega)]

/-! ## `Cut` -/

theorem prefix_iff_take {a s : List Byte} : a <+: s ↔ s.take a.length = a :=
  ⟨fun h => (List.prefix_iff_eq_take.1 h).symm, fun h => List.prefix_iff_eq_take.2 h.symm⟩

theorem Cut.hit {a s : List Byte} {ps : List (List Byte)} (ha : a <+: s) :
    Cut a s ps ↔ ∃ qs, ps = [] :: qs ∧ Cut a (s.drop a.length) qs := by
  obtain ⟨r, rfl⟩ := ha
  rw [List.drop_left]
  constructor
  · intro h
    generalize hs : a ++ r = s at h
    cases h with
    | last _ hn => subst hs; exact absurd ⟨[], r, by simp⟩ hn
    | cons p r' qs hp hc =>
      have hp0 : p = [] := by
        cases p with
        | nil => rfl
        | cons x p => refine absurd ?_ (hp 0 (by simp)); rw [← hs]; simp
      subst hp0
      simp only [List.nil_append] at hs
      rw [List.append_cancel_left hs]
      exact ⟨qs, rfl, hc⟩
  · rintro ⟨qs, rfl, hc⟩
    simpa using Cut.cons [] r qs (by simp) hc

theorem infix_cons {a t : List Byte} {c : Byte} : a <:+: c :: t ↔ a <+: c :: t ∨ a <:+: t := List.infix_cons_iff

theorem Cut.miss {a t : List Byte} {c : Byte} {ps : List (List Byte)} (hn : ¬ a <+: c :: t) :
    Cut a (c :: t) ps ↔ ∃ p qs, ps = (c :: p) :: qs ∧ Cut a t (p :: qs) := by
  constructor
  · intro h
    generalize hs : c :: t = s at h
    cases h with
    | last _ hi => subst hs; exact ⟨t, [], rfl, .last _ fun h => hi (infix_cons.2 (.inr h))⟩
    | cons p r' qs hp hc =>
      cases p with
      | nil => exact absurd ⟨r', by simpa using hs.symm⟩ hn
      | cons x p =>
        simp only [List.cons_append, List.cons.injEq] at hs
        obtain ⟨rfl, rfl⟩ := hs
        exact ⟨p, qs, rfl, .cons p r' qs (fun i hi => by simpa using hp (i + 1) (by simpa using hi)) hc⟩
  · rintro ⟨p, qs, rfl, h⟩
    generalize hp : p :: qs = ps at h
    cases h with
    | last _ hi =>
      simp only [List.cons.injEq] at hp; obtain ⟨rfl, rfl⟩ := hp
      exact .last _ fun h => (infix_cons.1 h).elim hn hi
    | cons p' r' qs' hp' hc =>
      simp only [List.cons.injEq] at hp; obtain ⟨rfl, rfl⟩ := hp
      exact .cons (c :: p) r' qs (fun i hi => by
        cases i with
        | zero => simpa using hn
        | succ i => simpa using hp' i (by simpa using hi)) hc

theorem Cut.short {a s : List Byte} {ps : List (List Byte)} (hs : s.length < a.length) : Cut a s ps ↔ ps = [s] := by
  constructor
  · intro h
    cases h with
    | last => rfl
    | cons p r qs hp hc => simp at hs; omega
  · rintro rfl
    exact .last _ fun h => by have := h.length_le; omega

/-- Every string has exactly one cutting at a nonempty separator. -/
theorem Cut.exists_unique {a : List Byte} (ha : a ≠ []) (s : List Byte) : ∃! ps, Cut a s ps := by
  suffices H : ∀ n (s : List Byte), s.length ≤ n → ∃! ps, Cut a s ps from H _ s le_rfl
  intro n
  induction n with
  | zero =>
    intro s hs
    have : s = [] := List.length_eq_zero_iff.1 (by omega)
    subst this
    have h0 : ([] : List Byte).length < a.length := by simpa [List.length_pos_iff] using ha
    exact ⟨[[]], (Cut.short h0).2 rfl, fun _ h => (Cut.short h0).1 h⟩
  | succ n ih =>
    intro s hs
    by_cases hp : a <+: s
    · have hal := List.length_pos_iff.2 ha
      have hpl := hp.length_le
      obtain ⟨qs, hq, hu⟩ := ih (s.drop a.length) (by simp; omega)
      refine ⟨[] :: qs, (Cut.hit hp).2 ⟨qs, rfl, hq⟩, fun ps h => ?_⟩
      obtain ⟨qs', rfl, hq'⟩ := (Cut.hit hp).1 h
      rw [hu _ hq']
    · cases s with
      | nil =>
        have h0 : ([] : List Byte).length < a.length := by simpa [List.length_pos_iff] using ha
        exact ⟨[[]], (Cut.short h0).2 rfl, fun _ h => (Cut.short h0).1 h⟩
      | cons c t =>
        obtain ⟨qs, hq, hu⟩ := ih t (by simpa using hs)
        have hne : qs ≠ [] := by cases hq <;> simp
        obtain ⟨p, qs, rfl⟩ := List.exists_cons_of_ne_nil hne
        refine ⟨(c :: p) :: qs, (Cut.miss hp).2 ⟨p, qs, rfl, hq⟩, fun ps h => ?_⟩
        obtain ⟨p', qs', rfl, hq'⟩ := (Cut.miss hp).1 h
        have := hu _ hq'
        simp_all

theorem Cut.ne_nil {a s : List Byte} {ps : List (List Byte)} (h : Cut a s ps) : ps ≠ [] := by cases h <;> simp

/-- The pieces joined with the separator give the string back. -/
theorem Cut.join {a s : List Byte} {ps : List (List Byte)} (h : Cut a s ps) : a.intercalate ps = s := by
  induction h with
  | last s _ => simp [List.intercalate]
  | cons p r ps _ hc ih =>
    obtain ⟨q, qs, rfl⟩ := List.exists_cons_of_ne_nil hc.ne_nil
    rw [← ih]; simp [List.intercalate]

/-- No piece contains the separator. -/
theorem Cut.pieces {a s : List Byte} {ps : List (List Byte)} (ha : a ≠ []) (h : Cut a s ps) : ∀ p ∈ ps, ¬ a <:+: p := by
  induction h with
  | last s hn => simpa using hn
  | cons p r ps hp _ ih =>
    intro q hq
    rcases List.mem_cons.1 hq with rfl | hq
    · rintro ⟨x, y, rfl⟩
      refine hp x.length (by have := List.length_pos_iff.2 ha; simp; omega) ⟨y ++ a ++ r, ?_⟩
      simp
    · exact ih q hq

/-! ## Loops over views -/

theorem YStr.Holds.cmp {h n : YStr} {hb nb : List Byte} (hh : h.Holds hb) (hn : n.Holds nb) {i : Nat} (hi : i + nb.length ≤ hb.length) :
    h.sub i n.len = .ok ((hb.drop i).take nb.length) ∧ n.sub 0 n.len = .ok nb ∧ (((hb.drop i).take nb.length = nb) ↔ nb <+: hb.drop i) := by
  refine ⟨?_, hn.sub0, prefix_iff_take.symm⟩
  rw [hn.len, hh.sub hi]

theorem not_prefix_of_short {a s : List Byte} (h : s.length < a.length) : ¬ a <+: s := fun hp => by
  have := hp.length_le; omega

theorem findLoop_spec {h n : YStr} {hb nb : List Byte} (hh : h.Holds hb) (hn : n.Holds nb) :
    ∀ k i, i + k + nb.length = hb.length + 1 →
      (findLoop h n k i = .ok none ∧ ∀ j, i ≤ j → j + nb.length ≤ hb.length → ¬ nb <+: hb.drop j) ∨
      (∃ m, findLoop h n k i = .ok (some m) ∧ i ≤ m ∧ m + nb.length ≤ hb.length ∧ nb <+: hb.drop m ∧ ∀ j, i ≤ j → j < m → ¬ nb <+: hb.drop j) := by
  intro k
  induction k with
  | zero => intro i hi; left; exact ⟨rfl, fun j hj hj' => by omega⟩
  | succ k ih =>
    intro i hi
    obtain ⟨h1, h2, h3⟩ := hh.cmp hn (i := i) (by omega)
    rw [findLoop, h1, h2]
    simp only [Out.bind_ok]
    by_cases hc : (hb.drop i).take nb.length = nb
    · rw [if_pos hc]; right
      exact ⟨i, rfl, le_rfl, by omega, h3.1 hc, fun j hj hj' => by omega⟩
    · rw [if_neg hc]
      rcases ih (i + 1) (by omega) with ⟨e, hx⟩ | ⟨m, e, hm1, hm2, hm3, hm4⟩
      · left
        refine ⟨e, fun j hj hj' => ?_⟩
        rcases Nat.eq_or_lt_of_le hj with rfl | hlt
        · exact fun hp => hc (h3.2 hp)
        · exact hx j hlt hj'
      · right
        refine ⟨m, e, by omega, hm2, hm3, fun j hj hj' => ?_⟩
        rcases Nat.eq_or_lt_of_le hj with rfl | hlt
        · exact fun hp => hc (h3.2 hp)
        · exact hm4 j hlt hj'

theorem countLoop_spec {h n : YStr} {hb nb : List Byte} (hh : h.Holds hb) (hn : n.Holds nb) (hne : nb ≠ []) :
    ∀ f i c ps, i ≤ hb.length → hb.length - i < f → Cut nb (hb.drop i) ps → countLoop h n f i c = some (.ok (c + (ps.length - 1))) := by
  have hnl := List.length_pos_iff.2 hne
  intro f
  induction f with
  | zero => intro i c ps _ hf; omega
  | succ f ih =>
    intro i c ps hil hf hcut
    rw [countLoop, hh.len, hn.len]
    by_cases hi : i + nb.length ≤ hb.length
    · obtain ⟨h1, h2, h3⟩ := hh.cmp hn hi
      rw [hn.len] at h1 h2
      rw [if_pos hi, h1, h2]
      simp only [Run.bind_ok]
      by_cases hc : nb = (hb.drop i).take nb.length
      · rw [if_pos hc]
        obtain ⟨qs, rfl, hq⟩ := (Cut.hit (h3.1 hc.symm)).1 hcut
        rw [List.drop_drop] at hq
        have := List.length_pos_iff.2 hq.ne_nil
        rw [ih _ (c + 1) qs (by omega) (by omega) hq]
        simp; omega
      · rw [if_neg hc]
        have hnp : ¬ nb <+: hb.drop i := fun hp => hc (h3.2 hp).symm
        rw [List.drop_eq_getElem_cons (by omega : i < hb.length)] at hcut hnp
        obtain ⟨p, qs, rfl, hq⟩ := (Cut.miss hnp).1 hcut
        rw [ih _ c _ (by omega) (by omega) hq]; simp
    · rw [if_neg hi]
      rw [Cut.short (by simp; omega)] at hcut
      subst hcut; rfl

theorem mapM_id_some (l : List Byte) : (l.map some).mapM id = some l := by
  induction l with
  | nil => rfl
  | cons x l ih => rw [List.map_cons, List.mapM_cons, ih]; rfl

theorem bbString_holds {bb : ByteBuffer} {l : List Byte} (h : bb.mem.take bb.count = l.map some) :
    ∃ p, bbString bb = .ok p ∧ p.Holds l := by
  rw [bbString, h, mapM_id_some]
  exact ⟨_, rfl, YStr.holds_heap l⟩

theorem replLoop_spec {s a b : YStr} {sb ab rb : List Byte} (hs : s.Holds sb) (ha : a.Holds ab) (hb : b.Holds rb) (hne : ab ≠ []) :
    ∀ f i ps (bb : ByteBuffer) (out : List Byte), i ≤ sb.length → sb.length - i < f → Cut ab (sb.drop i) ps →
      bb.Holds (out.map some) → ∃ bb', replLoop s a b f i bb = some (.ok bb') ∧ bb'.Holds ((out ++ rb.intercalate ps).map some) := by
  have hal := List.length_pos_iff.2 hne
  intro f
  induction f with
  | zero => intro i ps bb out _ hf; omega
  | succ f ih =>
    intro i ps bb out hil hf hcut hbb
    rw [replLoop, hs.len, ha.len]
    by_cases hi : i < sb.length
    · rw [if_pos hi]
      have key : ∃ hit : Bool, (if ab.length ≤ sb.length - i then
          Run.bind (some (s.sub i ab.length)) fun x => Run.bind (some (a.sub 0 ab.length)) fun y => some (.ok (decide (x = y)))
          else some (.ok false)) = some (.ok hit) ∧ (hit = true ↔ ab <+: sb.drop i) := by
        by_cases hl : ab.length ≤ sb.length - i
        · obtain ⟨h1, h2, h3⟩ := hs.cmp ha (i := i) (by omega)
          rw [ha.len] at h1 h2
          rw [if_pos hl, h1, h2]
          exact ⟨_, rfl, by simpa using h3⟩
        · rw [if_neg hl]
          exact ⟨_, rfl, by simpa using not_prefix_of_short (by simp; omega)⟩
      obtain ⟨hit, hk, hiff⟩ := key
      rw [hk]
      simp only [Run.bind_ok]
      by_cases hh : hit = true
      · rw [if_pos hh]
        obtain ⟨qs, rfl, hq⟩ := (Cut.hit (hiff.1 hh)).1 hcut
        have hpl := (hiff.1 hh).length_le
        rw [List.length_drop] at hpl
        rw [List.drop_drop] at hq
        obtain ⟨bb1, hb1, hb1'⟩ := append_step hbb rb
        rw [hb.sub0, Run.bind_ok, hb1]
        simp only [bbOut, Run.bind_ok]
        rw [← List.map_append] at hb1'
        obtain ⟨bb2, hb2, hb2'⟩ := ih _ qs bb1 _ (by omega) (by omega) hq hb1'
        refine ⟨bb2, hb2, ?_⟩
        obtain ⟨q, qs, rfl⟩ := List.exists_cons_of_ne_nil hq.ne_nil
        simpa [List.intercalate] using hb2'
      · rw [if_neg hh]
        rw [List.drop_eq_getElem_cons hi] at hcut hiff
        obtain ⟨p, qs, rfl, hq⟩ := (Cut.miss (fun hp => hh (hiff.2 hp))).1 hcut
        obtain ⟨bb1, hb1, hb1'⟩ := addByte_step hbb sb[i]
        rw [hs.at hi, Run.bind_ok, hb1]
        simp only [bbOut, Run.bind_ok]
        have : List.map some out ++ [some sb[i]] = List.map some (out ++ [sb[i]]) := by simp
        rw [this] at hb1'
        obtain ⟨bb2, hb2, hb2'⟩ := ih _ _ bb1 _ (by omega) (by omega) hq hb1'
        refine ⟨bb2, hb2, ?_⟩
        cases qs <;> simpa [List.intercalate] using hb2'
    · rw [if_neg hi]
      have : i = sb.length := by omega
      subst this
      rw [List.drop_length, Cut.short (by simpa using hal)] at hcut
      subst hcut
      exact ⟨bb, rfl, by simpa [List.intercalate] using hbb⟩

/-- The bytes of a list of strings. -/
def HoldAll : List YStr → List (List Byte) → Prop := List.Forall₂ YStr.Holds

theorem HoldAll.append {a b : List YStr} {x y : List (List Byte)} (h1 : HoldAll a x) (h2 : HoldAll b y) : HoldAll (a ++ b) (x ++ y) :=
  List.rel_append h1 h2

/-- The pieces `split` actually returns: the last one lacks its last `k` bytes. -/
def chopLast (k : Nat) (ps : List (List Byte)) : List (List Byte) :=
  ps.dropLast ++ (ps.getLast?.map fun l => l.take (l.length - k)).toList

theorem chopLast_cons (k : Nat) (p : List Byte) {qs : List (List Byte)} (h : qs ≠ []) : chopLast k (p :: qs) = p :: chopLast k qs := by
  obtain ⟨q, qs, rfl⟩ := List.exists_cons_of_ne_nil h
  simp [chopLast]

theorem splitLoop_spec {h n : YStr} {hb nb : List Byte} (hh : h.Holds hb) (hn : n.Holds nb) (hne : nb ≠ []) :
    ∀ f start e acc accb p ps, start ≤ e → e ≤ hb.length → hb.length - e < f → (start < e → e + nb.length ≤ hb.length + 1) →
      Cut nb (hb.drop e) (p :: ps) → HoldAll acc accb →
      ∃ out, splitLoop h n f start e acc = some (.ok out) ∧
        HoldAll out (accb ++ chopLast (nb.length - 1) (((hb.drop start).take (e - start) ++ p) :: ps)) := by
  have hnl := List.length_pos_iff.2 hne
  intro f
  induction f with
  | zero => intro start e acc accb p ps _ _ hf; omega
  | succ f ih =>
    intro start e acc accb p ps hse hel hf hpre hcut hacc
    rw [splitLoop, hh.len, hn.len]
    by_cases hi : e + nb.length ≤ hb.length
    · obtain ⟨h1, h2, h3⟩ := hh.cmp hn hi
      rw [hn.len] at h1 h2
      rw [if_pos hi, h1, h2]
      simp only [Run.bind_ok]
      by_cases hc : (hb.drop e).take nb.length = nb
      · rw [if_pos hc]
        obtain ⟨qs, hqe, hq⟩ := (Cut.hit (h3.1 hc)).1 hcut
        simp only [List.cons.injEq] at hqe
        obtain ⟨rfl, rfl⟩ := hqe
        rw [List.drop_drop] at hq
        obtain ⟨pc, hp1, hp2⟩ := hh.piece hse hel
        rw [Nat.add_comm start, Nat.add_comm e, hp1, Run.bind_ok]
        obtain ⟨q, qs, rfl⟩ := List.exists_cons_of_ne_nil hq.ne_nil
        obtain ⟨out, ho1, ho2⟩ := ih (e + nb.length) (e + nb.length) (acc ++ [pc]) (accb ++ [(hb.drop start).take (e - start)]) q qs le_rfl
          (by omega) (by omega) (by omega) hq (hacc.append (.cons hp2 .nil))
        refine ⟨out, ho1, ?_⟩
        rw [chopLast_cons _ _ (by simp)]
        simpa using ho2
      · rw [if_neg hc]
        have hnp : ¬ nb <+: hb.drop e := fun hp => hc (h3.2 hp)
        rw [List.drop_eq_getElem_cons (by omega : e < hb.length)] at hcut hnp
        obtain ⟨p', qs, hpe, hq⟩ := (Cut.miss hnp).1 hcut
        simp only [List.cons.injEq] at hpe
        obtain ⟨rfl, rfl⟩ := hpe
        obtain ⟨out, ho1, ho2⟩ := ih start (e + 1) acc accb p' ps (by omega) (by omega) (by omega) (by omega) hq hacc
        refine ⟨out, ho1, ?_⟩
        have : (hb.drop start).take (e + 1 - start) = (hb.drop start).take (e - start) ++ [hb[e]] := by
          rw [show e + 1 - start = e - start + 1 by omega, List.take_add_one]
          congr 1
          rw [List.getElem?_drop, show start + (e - start) = e by omega, List.getElem?_eq_getElem (by omega)]; rfl
        rw [this] at ho2
        simpa using ho2
    · rw [if_neg hi]
      rw [Cut.short (by simp; omega)] at hcut
      simp only [List.cons.injEq] at hcut
      obtain ⟨rfl, rfl⟩ := hcut
      obtain ⟨pc, hp1, hp2⟩ := hh.piece hse hel
      rw [Nat.add_comm start, Nat.add_comm e, hp1, Run.bind_ok]
      refine ⟨_, rfl, hacc.append ?_⟩
      simp only [chopLast, List.dropLast_singleton, List.getLast?_singleton, Option.map_some, Option.toList_some, List.nil_append]
      refine .cons ?_ .nil
      have e1 : (hb.drop start).take (e - start) ++ hb.drop e = hb.drop start := by
        conv_rhs => rw [← List.take_append_drop (e - start) (hb.drop start)]
        rw [List.drop_drop, show start + (e - start) = e by omega]
      rw [e1, List.length_drop, show hb.length - start - (nb.length - 1) = e - start by omega]
      exact hp2

/-! ## Whitespace -/

theorem isWs_iff (c : Byte) : isWs c = true ↔ IsSpace c := by
  simp [isWs, IsSpace]; tauto

theorem isWs_not_iff (c : Byte) : isWs c = false ↔ ¬ IsSpace c := by
  rw [← isWs_iff]; simp

theorem takeWhile_append_stop {p : Byte → Bool} {a b : List Byte} (ha : ∀ c ∈ a, p c = true) (hb : ∀ c, b.head? = some c → p c = false) :
    (a ++ b).takeWhile p = a ∧ (a ++ b).dropWhile p = b := by
  induction a with
  | nil =>
    cases b with
    | nil => simp
    | cons x b => have := hb x rfl; simp [this]
  | cons x a ih =>
    have := ih fun c hc => ha c (by simp [hc])
    have hx := ha x (by simp)
    simp [hx, this]

theorem dropWhile_head {p : Byte → Bool} (s : List Byte) (c : Byte) (h : (s.dropWhile p).head? = some c) : p c = false := by
  induction s with
  | nil => simp at h
  | cons x s ih =>
    rw [List.dropWhile_cons] at h
    split at h
    · exact ih h
    · simp_all

theorem Words.none {s : List Byte} {ws : List (List Byte)} (h : s.dropWhile isWs = []) : Words s ws ↔ ws = [] := by
  rw [List.dropWhile_eq_nil_iff] at h
  constructor
  · intro hw
    cases hw with
    | nil => rfl
    | cons sp w r ws hsp hne hw hr _ =>
      obtain ⟨c, w, rfl⟩ := List.exists_cons_of_ne_nil hne
      exact absurd ((isWs_iff c).1 (h c (by simp))) (hw c (by simp))
  · rintro rfl
    exact .nil _ fun c hc => (isWs_iff c).1 (h c hc)

theorem Words.some {s : List Byte} {ws : List (List Byte)} (h : s.dropWhile isWs ≠ []) :
    Words s ws ↔ ∃ vs, ws = (s.dropWhile isWs).takeWhile (fun c => !isWs c) :: vs ∧ Words ((s.dropWhile isWs).dropWhile fun c => !isWs c) vs := by
  constructor
  · intro hw
    cases hw with
    | nil _ hs => exact absurd (List.dropWhile_eq_nil_iff.2 fun c hc => (isWs_iff c).2 (hs c hc)) h
    | cons sp w r vs hsp hne hw hr hws =>
      have h1 := takeWhile_append_stop (p := isWs) (a := sp) (b := w ++ r) (fun c hc => (isWs_iff c).2 (hsp c hc)) (by
        intro c hc
        obtain ⟨x, w, rfl⟩ := List.exists_cons_of_ne_nil hne
        simp only [List.cons_append, List.head?_cons, Option.some.injEq] at hc
        subst hc
        exact (isWs_not_iff _).2 (hw _ (by simp)))
      have h2 := takeWhile_append_stop (p := fun c => !isWs c) (a := w) (b := r)
        (fun c hc => by simpa using (isWs_not_iff c).2 (hw c hc)) (fun c hc => by simpa using (isWs_iff c).2 (hr c hc))
      rw [List.append_assoc, h1.2, h2.1, h2.2]
      exact ⟨vs, rfl, hws⟩
  · rintro ⟨vs, rfl, hv⟩
    generalize ht : s.dropWhile isWs = t at *
    have hs : s = s.takeWhile isWs ++ t.takeWhile (fun c => !isWs c) ++ t.dropWhile (fun c => !isWs c) := by
      rw [List.append_assoc, List.takeWhile_append_dropWhile, ← ht, List.takeWhile_append_dropWhile]
    rw [hs]
    refine .cons _ _ _ _ (fun c hc => (isWs_iff c).1 (List.mem_takeWhile_imp hc)) ?_ (fun c hc => ?_) (fun c hc => ?_) hv
    · obtain ⟨x, t', rfl⟩ := List.exists_cons_of_ne_nil h
      have := dropWhile_head (p := isWs) s x (by rw [ht]; rfl)
      simp [this]
    · have := List.mem_takeWhile_imp hc
      exact (isWs_not_iff c).1 (by simpa using this)
    · have := dropWhile_head _ c hc
      exact (isWs_iff c).1 (by simpa using this)

/-- Every string has exactly one decomposition into words. -/
theorem Words.exists_unique (s : List Byte) : ∃! ws, Words s ws := by
  suffices H : ∀ n (s : List Byte), s.length ≤ n → ∃! ws, Words s ws from H _ s le_rfl
  intro n
  induction n with
  | zero =>
    intro s hs
    have : s = [] := List.length_eq_zero_iff.1 (by omega)
    subst this
    exact ⟨[], (Words.none (by simp)).2 rfl, fun _ h => (Words.none (by simp)).1 h⟩
  | succ n ih =>
    intro s hs
    by_cases h : s.dropWhile isWs = []
    · exact ⟨[], (Words.none h).2 rfl, fun _ h' => (Words.none h).1 h'⟩
    · have hlt : ((s.dropWhile isWs).dropWhile fun c => !isWs c).length ≤ n := by
        have h1 : (s.dropWhile isWs).length ≤ s.length := List.length_dropWhile_le ..
        obtain ⟨x, t', ht⟩ := List.exists_cons_of_ne_nil h
        have hx := dropWhile_head (p := isWs) s x (by rw [ht]; rfl)
        rw [ht] at h1 ⊢
        have h2 : (t'.dropWhile fun c => !isWs c).length ≤ t'.length := List.length_dropWhile_le ..
        simp only [List.dropWhile_cons, hx, Bool.not_false, if_true]
        simp at h1; omega
      obtain ⟨vs, hv, hu⟩ := ih _ hlt
      refine ⟨_, (Words.some h).2 ⟨vs, rfl, hv⟩, fun ws hw => ?_⟩
      obtain ⟨vs', rfl, hv'⟩ := (Words.some h).1 hw
      rw [hu _ hv']

theorem skipWs_spec {s : YStr} {bs : List Byte} (h : s.Holds bs) (w : Bool) :
    ∀ f e, e ≤ bs.length → bs.length - e < f → ∃ e', skipWs s w f e = some (.ok e') ∧ e ≤ e' ∧ e' ≤ bs.length ∧
      (bs.drop e).take (e' - e) = (bs.drop e).takeWhile (fun c => isWs c == w) ∧ bs.drop e' = (bs.drop e).dropWhile (fun c => isWs c == w) := by
  intro f
  induction f with
  | zero => intro e _ hf; omega
  | succ f ih =>
    intro e he hf
    rw [skipWs, h.len]
    by_cases hi : e < bs.length
    · rw [if_pos hi, h.at hi, Run.bind_ok]
      rw [List.drop_eq_getElem_cons hi]
      by_cases hw : isWs bs[e] = w
      · rw [if_pos hw]
        obtain ⟨e', h1, h2, h3, h4, h5⟩ := ih (e + 1) (by omega) (by omega)
        refine ⟨e', h1, by omega, h3, ?_, ?_⟩
        · rw [show e' - e = e' - (e + 1) + 1 by omega]
          simp [-List.getElem_cons_drop, List.dropWhile_cons, List.takeWhile_cons, hw, h4]
        · simp [-List.getElem_cons_drop, List.dropWhile_cons, List.takeWhile_cons, hw, h5]
      · rw [if_neg hw]
        refine ⟨e, rfl, le_rfl, he, ?_, ?_⟩
        · simp [-List.getElem_cons_drop, List.dropWhile_cons, List.takeWhile_cons, hw]
        · rw [List.drop_eq_getElem_cons hi]; simp [-List.getElem_cons_drop, List.dropWhile_cons, List.takeWhile_cons, hw]
    · rw [if_neg hi]
      have : e = bs.length := by omega
      subst this
      exact ⟨_, rfl, le_rfl, le_rfl, by simp, by simp⟩

theorem splitWsLoop_spec {s : YStr} {bs : List Byte} (h : s.Holds bs) :
    ∀ f e acc accb ws, e ≤ bs.length → bs.length - e + 2 ≤ f → Words (bs.drop e) ws → HoldAll acc accb →
      ∃ out, splitWsLoop s f e acc = some (.ok out) ∧ HoldAll out (accb ++ ws) := by
  intro f
  induction f with
  | zero => intro e acc accb ws _ hf; omega
  | succ f ih =>
    intro e acc accb ws he hf hw hacc
    rw [splitWsLoop]
    obtain ⟨e1, h1, h2, h3, h4, h5⟩ := skipWs_spec h true f e he (by omega)
    rw [h1, Run.bind_ok, h.len]
    simp only [beq_true] at h4 h5
    by_cases hge : e1 ≥ bs.length
    · rw [if_pos hge]
      have : (bs.drop e).dropWhile isWs = [] := by
        have := h5; rw [List.drop_eq_nil_of_le hge] at this; exact this.symm
      rw [Words.none this] at hw
      subst hw
      exact ⟨acc, rfl, by simpa using hacc⟩
    · rw [if_neg hge]
      have hne : (bs.drop e).dropWhile isWs ≠ [] := by
        rw [← show bs.drop e1 = (bs.drop e).dropWhile isWs from h5]
        simp; omega
      obtain ⟨vs, rfl, hv⟩ := (Words.some hne).1 hw
      rw [← show bs.drop e1 = (bs.drop e).dropWhile isWs from h5] at hv ⊢
      obtain ⟨e2, g1, g2, g3, g4, g5⟩ := skipWs_spec h false f e1 h3 (by omega)
      simp only [beq_false] at g4 g5
      rw [g1, Run.bind_ok]
      obtain ⟨pc, hp1, hp2⟩ := h.piece g2 g3
      rw [Nat.add_comm e1, Nat.add_comm e2, hp1, Run.bind_ok]
      rw [g4] at hp2
      rw [← g5] at hv
      have hlt : e1 < e2 := by
        rcases Nat.lt_or_ge e1 e2 with hlt | hge'
        · exact hlt
        · exfalso
          have : e1 = e2 := by omega
          subst this
          rw [List.drop_eq_getElem_cons (by omega : e1 < bs.length)] at g5 h5
          have hx := dropWhile_head (p := isWs) (bs.drop e) bs[e1] (by rw [← h5]; rfl)
          have hx2 := dropWhile_head (p := fun c => !isWs c) _ bs[e1] (by rw [← g5]; rfl)
          simp [hx] at hx2
      obtain ⟨out, ho1, ho2⟩ := ih e2 (acc ++ [pc]) (accb ++ [_]) vs g3 (by omega) hv (hacc.append (.cons hp2 .nil))
      exact ⟨out, ho1, by simpa using ho2⟩

theorem ltrimWsLoop_spec {s : YStr} {bs : List Byte} (h : s.Holds bs) :
    ∀ f e, e ≤ bs.length → bs.length - e < f → ∃ e', ltrimWsLoop s f e = some (.ok e') ∧ e ≤ e' ∧ e' ≤ bs.length ∧
      bs.drop e' = (bs.drop e).dropWhile isWs := by
  intro f
  induction f with
  | zero => intro e _ hf; omega
  | succ f ih =>
    intro e he hf
    rw [ltrimWsLoop, h.len]
    by_cases hi : bs.length - e ≥ 1
    · rw [if_pos hi, h.at (by omega : e < bs.length), Run.bind_ok]
      rw [List.drop_eq_getElem_cons (by omega : e < bs.length)]
      by_cases hw : isWs bs[e] = true
      · rw [if_pos hw]
        obtain ⟨e', h1, h2, h3, h5⟩ := ih (e + 1) (by omega) (by omega)
        exact ⟨e', h1, by omega, h3, by simp [-List.getElem_cons_drop, List.dropWhile_cons, List.takeWhile_cons, hw, h5]⟩
      · rw [if_neg hw]
        exact ⟨e, rfl, le_rfl, he, by rw [List.drop_eq_getElem_cons (by omega : e < bs.length)]; simp [-List.getElem_cons_drop, List.dropWhile_cons, List.takeWhile_cons, hw]⟩
    · rw [if_neg hi]
      have : e = bs.length := by omega
      subst this
      exact ⟨_, rfl, le_rfl, le_rfl, by simp⟩

theorem rtrimWsLoop_spec {s : YStr} {bs : List Byte} (h : s.Holds bs) :
    ∀ e, e ≤ bs.length → ∃ e', rtrimWsLoop s e = .ok e' ∧ e' ≤ e ∧ bs.take e' = (bs.take e).rdropWhile isWs := by
  intro e
  induction e with
  | zero => intro _; exact ⟨0, rfl, le_rfl, by simp⟩
  | succ e ih =>
    intro he
    have ht : bs.take (e + 1) = bs.take e ++ [bs[e]] := by
      rw [List.take_add_one, List.getElem?_eq_getElem (by omega)]; rfl
    rw [rtrimWsLoop, h.at (by omega : e < bs.length), Out.bind_ok]
    by_cases hw : isWs bs[e] = true
    · rw [if_pos hw]
      obtain ⟨e', h1, h2, h3⟩ := ih (by omega)
      exact ⟨e', h1, by omega, by rw [ht, List.rdropWhile_concat_pos _ _ _ hw, h3]⟩
    · rw [if_neg hw]
      exact ⟨e + 1, rfl, le_rfl, by conv_rhs => rw [ht, List.rdropWhile_concat_neg _ _ _ hw, ← ht]⟩

/-! ## Trimming a needle -/

theorem repeatBytes_succ (k : Nat) (n : List Byte) : repeatBytes (k + 1) n = n ++ repeatBytes k n := by
  simp [repeatBytes, List.replicate_succ]

theorem repeatBytes_succ' (k : Nat) (n : List Byte) : repeatBytes (k + 1) n = repeatBytes k n ++ n := by
  simp [repeatBytes, List.replicate_succ']

theorem repeatBytes_length (k : Nat) (n : List Byte) : (repeatBytes k n).length = k * n.length := by
  induction k with
  | zero => simp [repeatBytes]
  | succ k ih => rw [repeatBytes_succ, List.length_append, ih]; ring

theorem ltrimLoop_spec {h n : YStr} {hb nb : List Byte} (hh : h.Holds hb) (hn : n.Holds nb) (hne : nb ≠ []) :
    ∀ f e, e ≤ hb.length → hb.length - e < f → ∃ e' k, ltrimLoop h n f e = some (.ok e') ∧ e' = e + k * nb.length ∧ e' ≤ hb.length ∧
      hb.drop e = repeatBytes k nb ++ hb.drop e' ∧ ¬ nb <+: hb.drop e' := by
  have hnl := List.length_pos_iff.2 hne
  intro f
  induction f with
  | zero => intro e _ hf; omega
  | succ f ih =>
    intro e he hf
    rw [ltrimLoop, hh.len, hn.len]
    by_cases hi : hb.length - e ≥ nb.length
    · obtain ⟨h1, h2, h3⟩ := hh.cmp hn (i := e) (by omega)
      rw [hn.len] at h1 h2
      rw [if_pos hi, h1, h2]
      simp only [Run.bind_ok]
      by_cases hc : (hb.drop e).take nb.length = nb
      · rw [if_pos hc]
        obtain ⟨e', k, g1, g2, g3, g4, g5⟩ := ih (e + nb.length) (by omega) (by omega)
        refine ⟨e', k + 1, g1, by rw [g2]; ring, g3, ?_, g5⟩
        rw [repeatBytes_succ, List.append_assoc, ← g4, ← List.drop_drop]
        conv_lhs => rw [← List.take_append_drop nb.length (hb.drop e), hc]
      · rw [if_neg hc]
        exact ⟨e, 0, rfl, by simp, he, by simp [repeatBytes], fun hp => hc (h3.2 hp)⟩
    · rw [if_neg hi]
      exact ⟨e, 0, rfl, by simp, he, by simp [repeatBytes], not_prefix_of_short (by simp; omega)⟩

theorem rtrimLoop_spec {h n : YStr} {hb nb : List Byte} (hh : h.Holds hb) (hn : n.Holds nb) (hne : nb ≠ []) :
    ∀ f e, e ≤ hb.length → e < f → ∃ e' k, rtrimLoop h n f e = some (.ok e') ∧ e = e' + k * nb.length ∧
      hb.take e = hb.take e' ++ repeatBytes k nb ∧ ¬ nb <:+ hb.take e' := by
  have hnl := List.length_pos_iff.2 hne
  intro f
  induction f with
  | zero => intro e _ hf; omega
  | succ f ih =>
    intro e he hf
    rw [rtrimLoop, hn.len]
    by_cases hi : e ≥ nb.length
    · obtain ⟨h1, h2, h3⟩ := hh.cmp hn (i := e - nb.length) (by omega)
      rw [hn.len] at h1 h2
      rw [if_pos hi, h1, h2]
      have hsplit : hb.take e = hb.take (e - nb.length) ++ (hb.drop (e - nb.length)).take nb.length := by
        rw [← List.take_append_drop (e - nb.length) (hb.take e), List.take_take, List.drop_take, Nat.min_eq_left (by omega),
          show e - (e - nb.length) = nb.length by omega]
      simp only [Run.bind_ok]
      by_cases hc : (hb.drop (e - nb.length)).take nb.length = nb
      · rw [if_pos hc]
        obtain ⟨e', k, g1, g2, g4, g5⟩ := ih (e - nb.length) (by omega) (by omega)
        refine ⟨e', k + 1, g1, by rw [Nat.add_mul, ← Nat.add_assoc, ← g2]; omega, ?_, g5⟩
        rw [repeatBytes_succ', ← List.append_assoc, ← g4, hsplit, hc]
      · rw [if_neg hc]
        refine ⟨e, 0, rfl, by simp, by simp [repeatBytes], fun hs => hc ?_⟩
        rw [hsplit] at hs
        have hl : ((hb.drop (e - nb.length)).take nb.length).length = nb.length := by simp; omega
        exact ((List.suffix_of_suffix_length_le hs (List.suffix_append _ _) (by omega)).eq_of_length hl.symm).symm
    · rw [if_neg hi]
      refine ⟨e, 0, rfl, by simp, by simp [repeatBytes], fun hs => ?_⟩
      have := hs.length_le
      simp at this; omega

end Yasl
