import Verif.Model.Pattern
import Verif.Props.ByteBuffer
set_option autoImplicit false
namespace Yasl

mutual
def Pat.depth : Pat → Nat
  | .ls _ ps => ps.depth + 1
  | .table _ kvs => kvs.depth + 1
  | .alt p q => max p.depth q.depth + 1
  | .undef => 1 | .bool _ => 1 | .lit _ => 1 | .any => 1 | .type _ => 1 | .bind _ => 1
def Pats.depth : Pats → Nat
  | .nil => 1
  | .cons p ps => max p.depth ps.depth
def KVs.depth : KVs → Nat
  | .nil => 1
  | .cons _ p kvs => max p.depth kvs.depth
end

theorem Pats.depth_pos : ∀ ps : Pats, 1 ≤ ps.depth
  | .nil => Nat.le_refl _
  | .cons _ ps => Nat.le_trans (Pats.depth_pos ps) (by rw [Pats.depth]; exact Nat.le_max_right _ _)

theorem KVs.depth_pos : ∀ ps : KVs, 1 ≤ ps.depth
  | .nil => Nat.le_refl _
  | .cons _ _ ps => Nat.le_trans (KVs.depth_pos ps) (by rw [KVs.depth]; exact Nat.le_max_right _ _)

theorem readI_bytes (n : Nat) (rest : List Byte) : readI (bytes8 (BitVec.ofNat 64 n) ++ rest) = some (BitVec.ofNat 64 n, rest) := by
  unfold readI
  rw [C19_int_roundtrip]
  rw [Option.map_some, List.drop_left' (by simp [bytes8])]

theorem ofNat64 {n : Nat} (h : n < 2 ^ 64) : (BitVec.ofNat 64 n).toNat = n := by
  rw [BitVec.toNat_ofNat, Nat.mod_eq_of_lt h]

/-- `bs` is skipped as one pattern, with any fuel from `d` on -/
def Skips (d : Nat) (bs : List Byte) : Prop := ∀ f, d ≤ f → ∀ rest, ffPat f (bs ++ rest) = some rest

theorem Skips.mono {d e : Nat} {bs : List Byte} (h : Skips d bs) (hde : d ≤ e) : Skips e bs := fun f hf => h f (Nat.le_trans hde hf)

theorem ffMany_units {d f : Nat} (hf : d ≤ f) : ∀ (n : Nat) (us : List (List Byte)) (rest : List Byte), (∀ u ∈ us, Skips d u) → n ≤ us.length →
    ffMany (ffPat f) n (us.flatten ++ rest) = some ((us.drop n).flatten ++ rest)
  | 0, us, rest, _, _ => rfl
  | n + 1, [], rest, _, h => by simp at h
  | n + 1, u :: us, rest, hs, h => by
    rw [ffMany, List.flatten_cons, List.append_assoc, hs u (by simp) f hf, Option.bind_some]
    rw [ffMany_units hf n us rest (fun x hx => hs x (by simp [hx])) (by simpa using h)]
    rfl

theorem ff_leaf1 (f : Nat) (b : Byte) (rest : List Byte) (h : b = 0x01#8 ∨ b = 0x0F#8 ∨ ∃ t : PType, b = t.byte) : ffPat (f + 1) ([b] ++ rest) = some rest := by
  rcases h with rfl | rfl | ⟨t, rfl⟩
  · rfl
  · rfl
  · cases t <;> rfl

theorem ff_leaf2 (f : Nat) (b c : Byte) (rest : List Byte) (h : b = 0x08#8 ∨ b = 0x9A#8 ∨ b = 0xF4#8) : ffPat (f + 1) ([b, c] ++ rest) = some rest := by
  rcases h with rfl | rfl | rfl <;> rfl

theorem skips_lit (i : Nat) : Skips 1 (litPattern i) := by
  intro f hf rest
  obtain ⟨f, rfl⟩ : ∃ g, f = g + 1 := ⟨f - 1, by omega⟩
  unfold litPattern
  split
  · exact ff_leaf2 f _ _ rest (by simp)
  · show ((readI (bytes8 (BitVec.ofNat 64 i) ++ rest)).map Prod.snd) = _
    rw [readI_bytes]; rfl

theorem skips_key (ix : Val → Nat) (k : PKey) : Skips 1 (compileKey ix k) := by
  intro f hf rest
  obtain ⟨g, rfl⟩ : ∃ g, f = g + 1 := ⟨f - 1, by omega⟩
  cases k with
  | undef => rfl
  | bool b => rfl
  | lit v => exact skips_lit (ix v) (g + 1) (by omega) rest

/-- the parts of the code of a list of patterns -/
def Pats.units (ix : Val → Nat) : Pats → List (List Byte)
  | .nil => []
  | .cons p ps => compilePat ix p :: ps.units ix
def KVs.units (ix : Val → Nat) : KVs → List (List Byte)
  | .nil => []
  | .cons k p kvs => compileKey ix k :: compilePat ix p :: kvs.units ix

theorem Pats.units_flatten (ix : Val → Nat) : ∀ ps : Pats, (ps.units ix).flatten = compilePats ix ps
  | .nil => by rw [compilePats]; rfl
  | .cons p ps => by rw [compilePats, Pats.units, List.flatten_cons, Pats.units_flatten ix ps]
theorem Pats.units_length (ix : Val → Nat) : ∀ ps : Pats, (ps.units ix).length = ps.length
  | .nil => rfl
  | .cons p ps => by rw [Pats.units, List.length_cons, Pats.units_length ix ps, Pats.length]
theorem KVs.units_flatten (ix : Val → Nat) : ∀ ps : KVs, (ps.units ix).flatten = compileKVs ix ps
  | .nil => by rw [compileKVs]; rfl
  | .cons k p ps => by rw [compileKVs, KVs.units, List.flatten_cons, List.flatten_cons, KVs.units_flatten ix ps, List.append_assoc]
theorem KVs.units_length (ix : Val → Nat) : ∀ ps : KVs, (ps.units ix).length = 2 * ps.length
  | .nil => rfl
  | .cons k p ps => by rw [KVs.units, List.length_cons, List.length_cons, KVs.units_length ix ps, KVs.length]; omega

mutual
theorem skips_pat (ix : Val → Nat) : ∀ p : Pat, p.Sized → Skips p.depth (compilePat ix p)
  | .undef, _ => by intro f hf rest; rw [Pat.depth] at hf; obtain ⟨g, rfl⟩ : ∃ g, f = g + 1 := ⟨f - 1, by omega⟩; rw [compilePat]; rfl
  | .any, _ => by intro f hf rest; rw [Pat.depth] at hf; obtain ⟨g, rfl⟩ : ∃ g, f = g + 1 := ⟨f - 1, by omega⟩; rw [compilePat]; rfl
  | .bool b, _ => by intro f hf rest; rw [Pat.depth] at hf; obtain ⟨g, rfl⟩ : ∃ g, f = g + 1 := ⟨f - 1, by omega⟩; rw [compilePat]; rfl
  | .bind s, _ => by intro f hf rest; rw [Pat.depth] at hf; obtain ⟨g, rfl⟩ : ∃ g, f = g + 1 := ⟨f - 1, by omega⟩; rw [compilePat]; rfl
  | .type t, _ => by intro f hf rest; rw [Pat.depth] at hf; obtain ⟨g, rfl⟩ : ∃ g, f = g + 1 := ⟨f - 1, by omega⟩; rw [compilePat]; cases t <;> rfl
  | .lit v, _ => by rw [compilePat, Pat.depth]; exact skips_lit _
  | .ls rest ps, hs => by
    intro f hf r
    rw [Pat.depth] at hf
    obtain ⟨g, rfl⟩ : ∃ g, f = g + 1 := ⟨f - 1, by omega⟩
    rw [Pat.Sized] at hs
    have hu := skips_pats ix ps hs.2
    have : ffPat (g + 1) (compilePat ix (.ls rest ps) ++ r) = (readI (bytes8 (BitVec.ofNat 64 ps.length) ++ compilePats ix ps ++ r)).bind fun x => ffMany (ffPat g) x.1.toNat x.2 := by
      rw [compilePat]; cases rest <;> rfl
    rw [this, List.append_assoc, readI_bytes, Option.bind_some]
    show ffMany (ffPat g) (BitVec.ofNat 64 ps.length).toNat (compilePats ix ps ++ r) = _
    rw [ofNat64 (by omega), ← Pats.units_flatten, ffMany_units (d := ps.depth) (by omega) _ _ _ hu (by rw [Pats.units_length])]
    rw [← Pats.units_length ix, List.drop_length]; rfl
  | .table rest ps, hs => by
    intro f hf r
    rw [Pat.depth] at hf
    obtain ⟨g, rfl⟩ : ∃ g, f = g + 1 := ⟨f - 1, by omega⟩
    rw [Pat.Sized] at hs
    have hu := skips_kvs ix ps hs.2
    have : ffPat (g + 1) (compilePat ix (.table rest ps) ++ r) = (readI (bytes8 (BitVec.ofNat 64 (2 * ps.length)) ++ compileKVs ix ps ++ r)).bind fun x => ffMany (ffPat g) x.1.toNat x.2 := by
      rw [compilePat]; cases rest <;> rfl
    rw [this, List.append_assoc, readI_bytes, Option.bind_some]
    show ffMany (ffPat g) (BitVec.ofNat 64 (2 * ps.length)).toNat (compileKVs ix ps ++ r) = _
    rw [ofNat64 (by omega), ← KVs.units_flatten, ffMany_units (d := ps.depth) (by omega) _ _ _ hu (by rw [KVs.units_length])]
    rw [← KVs.units_length ix, List.drop_length]; rfl
  | .alt p q, hs => by
    intro f hf r
    rw [Pat.depth] at hf
    obtain ⟨g, rfl⟩ : ∃ g, f = g + 1 := ⟨f - 1, by omega⟩
    rw [Pat.Sized] at hs
    have : ffPat (g + 1) (compilePat ix (.alt p q) ++ r) = ffMany (ffPat g) 2 (compilePat ix p ++ compilePat ix q ++ r) := by
      rw [compilePat]; rfl
    have h1 := skips_pat ix p hs.1 g (by omega) (compilePat ix q ++ r)
    have h2 := skips_pat ix q hs.2 g (by omega) r
    rw [this]
    simp only [ffMany, List.append_assoc, h1, h2, Option.bind_some]
theorem skips_pats (ix : Val → Nat) : ∀ ps : Pats, ps.Sized → ∀ u ∈ ps.units ix, Skips ps.depth u
  | .nil, _ => by intro u hu; simp [Pats.units] at hu
  | .cons p ps, hs => by
    intro u hu
    rw [Pats.Sized] at hs
    rw [Pats.depth]
    rcases List.mem_cons.1 hu with rfl | hu
    · exact (skips_pat ix p hs.1).mono (Nat.le_max_left _ _)
    · exact (skips_pats ix ps hs.2 u hu).mono (Nat.le_max_right _ _)
theorem skips_kvs (ix : Val → Nat) : ∀ ps : KVs, ps.Sized → ∀ u ∈ ps.units ix, Skips ps.depth u
  | .nil, _ => by intro u hu; simp [KVs.units] at hu
  | .cons k p ps, hs => by
    intro u hu
    rw [KVs.Sized] at hs
    have hp := KVs.depth_pos ps
    rw [KVs.depth]
    rcases List.mem_cons.1 hu with rfl | hu
    · exact (skips_key ix k).mono (by have := Nat.le_max_right p.depth ps.depth; omega)
    · rcases List.mem_cons.1 hu with rfl | hu
      · exact (skips_pat ix p hs.1).mono (Nat.le_max_left _ _)
      · exact (skips_kvs ix ps hs.2 u hu).mono (Nat.le_max_right _ _)
end

/-! ## Bindings -/

theorem bindAllIn_append : ∀ (l l' : List (Nat × Val)) (slots : Nat → Val), bindAllIn slots (l ++ l') = bindAllIn (bindAllIn slots l) l'
  | [], _, _ => rfl
  | (s, v) :: l, l', slots => by rw [List.cons_append, bindAllIn, bindAllIn, bindAllIn_append]

theorem bindAllIn_ext : ∀ (l : List (Nat × Val)) (slots slots' : Nat → Val), (∀ s, s ∉ l.map Prod.fst → slots s = slots' s) → bindAllIn slots l = bindAllIn slots' l
  | [], slots, slots', h => funext fun s => h s (by simp)
  | (s, v) :: l, slots, slots', h => by
    rw [bindAllIn, bindAllIn]
    refine bindAllIn_ext l _ _ fun t ht => ?_
    by_cases hts : t = s
    · simp [hts]
    · simp only [if_neg hts]
      exact h t (by simp only [List.map_cons, List.mem_cons, not_or]; exact ⟨hts, ht⟩)

theorem bindAllIn_other : ∀ (l : List (Nat × Val)) (slots : Nat → Val) (s : Nat), s ∉ l.map Prod.fst → bindAllIn slots l s = slots s
  | [], _, _, _ => rfl
  | (t, v) :: l, slots, s, h => by
    simp only [List.map_cons, List.mem_cons, not_or] at h
    rw [bindAllIn, bindAllIn_other l _ s h.2, if_neg h.1]

mutual
theorem Pat.sure_bound (H : Heap) : ∀ (p : Pat) (v : Val) (l : List (Nat × Val)), p.bindings H v = some l → (∀ s ∈ p.sure, s ∈ l.map Prod.fst) ∧ ∀ s ∈ l.map Prod.fst, s ∈ p.vars
  | .undef, v, l, h => by
    rw [Pat.bindings] at h; split at h <;> simp at h; subst h; simp [Pat.sure]
  | .bool b, v, l, h => by
    rw [Pat.bindings] at h; split at h <;> simp at h; subst h; simp [Pat.sure]
  | .lit c, v, l, h => by
    rw [Pat.bindings] at h; split at h <;> simp at h; subst h; simp [Pat.sure]
  | .any, v, l, h => by rw [Pat.bindings] at h; simp at h; subst h; simp [Pat.sure]
  | .type t, v, l, h => by
    rw [Pat.bindings] at h; split at h <;> simp at h; subst h; simp [Pat.sure]
  | .bind s, v, l, h => by rw [Pat.bindings] at h; simp at h; subst h; simp [Pat.sure, Pat.vars]
  | .ls rest ps, v, l, h => by
    rw [Pat.sure, Pat.vars]
    simp only [Pat.bindings] at h
    split at h
    · split at h
      · exact Pats.sure_bound H ps _ l h
      · simp at h
    · simp at h
  | .table rest ps, v, l, h => by
    rw [Pat.sure, Pat.vars]
    simp only [Pat.bindings] at h
    split at h
    · split at h
      · exact KVs.sure_bound H ps _ l h
      · simp at h
    · simp at h
  | .alt p q, v, l, h => by
    rw [Pat.bindings] at h
    rw [Pat.sure, Pat.vars]
    split at h
    · rename_i l' hl
      simp at h; subst h
      have := Pat.sure_bound H p v l' hl
      exact ⟨fun s hs => this.1 s (List.mem_filter.1 hs).1, fun s hs => List.mem_append.2 (.inl (this.2 s hs))⟩
    · have := Pat.sure_bound H q v l h
      exact ⟨fun s hs => this.1 s (by simpa using (List.mem_filter.1 hs).2), fun s hs => List.mem_append.2 (.inr (this.2 s hs))⟩
theorem Pats.sure_bound (H : Heap) : ∀ (p : Pats) (v : List Val) (l : List (Nat × Val)), p.bindings H v = some l → (∀ s ∈ p.sure, s ∈ l.map Prod.fst) ∧ ∀ s ∈ l.map Prod.fst, s ∈ p.vars
  | .nil, v, l, h => by rw [Pats.bindings] at h; simp at h; subst h; simp [Pats.sure]
  | .cons p ps, [], l, h => by rw [Pats.bindings] at h; simp at h
  | .cons p ps, v :: vs, l, h => by
    rw [Pats.bindings] at h
    obtain ⟨l1, h1, h2⟩ := Option.bind_eq_some_iff.1 h
    obtain ⟨l2, h3, rfl⟩ := Option.map_eq_some_iff.1 h2
    have a := Pat.sure_bound H p v l1 h1
    have b := Pats.sure_bound H ps vs l2 h3
    rw [Pats.sure, Pats.vars, List.map_append]
    refine ⟨fun s hs => ?_, fun s hs => ?_⟩
    · rcases List.mem_append.1 hs with hs | hs
      · exact List.mem_append.2 (.inl (a.1 s hs))
      · exact List.mem_append.2 (.inr (b.1 s hs))
    · rcases List.mem_append.1 hs with hs | hs
      · exact List.mem_append.2 (.inl (a.2 s hs))
      · exact List.mem_append.2 (.inr (b.2 s hs))
theorem KVs.sure_bound (H : Heap) : ∀ (p : KVs) (e : Val → Option Val) (l : List (Nat × Val)), p.bindings H e = some l → (∀ s ∈ p.sure, s ∈ l.map Prod.fst) ∧ ∀ s ∈ l.map Prod.fst, s ∈ p.vars
  | .nil, v, l, h => by rw [KVs.bindings] at h; simp at h; subst h; simp [KVs.sure]
  | .cons k p ps, e, l, h => by
    rw [KVs.bindings] at h
    obtain ⟨v, h0, h⟩ := Option.bind_eq_some_iff.1 h
    obtain ⟨l1, h1, h2⟩ := Option.bind_eq_some_iff.1 h
    obtain ⟨l2, h3, rfl⟩ := Option.map_eq_some_iff.1 h2
    have a := Pat.sure_bound H p v l1 h1
    have b := KVs.sure_bound H ps e l2 h3
    rw [KVs.sure, KVs.vars, List.map_append]
    refine ⟨fun s hs => ?_, fun s hs => ?_⟩
    · rcases List.mem_append.1 hs with hs | hs
      · exact List.mem_append.2 (.inl (a.1 s hs))
      · exact List.mem_append.2 (.inr (b.1 s hs))
    · rcases List.mem_append.1 hs with hs | hs
      · exact List.mem_append.2 (.inl (a.2 s hs))
      · exact List.mem_append.2 (.inr (b.2 s hs))
end

/-! ## Matching -/

/-- what the machine may answer when the bindings are `spec` -/
def MatchOk (spec : Option (List (Nat × Val))) (vars : List Nat) (d : Nat) (plain : Prop) (rest : List Byte) (slots : Nat → Val) (r : MRes) : Prop :=
  match spec with
  | some l => r = some (true, rest, bindAllIn slots l)
  | none => ∃ us slots', r = some (false, List.flatten us ++ rest, slots') ∧ (∀ u ∈ us, Skips d u) ∧ (plain → us = []) ∧
      ∀ s, s ∉ vars → slots' s = slots s

theorem MatchOk.fail_here {vars : List Nat} {d : Nat} {plain : Prop} {rest : List Byte} {slots : Nat → Val} {r : MRes} (h : r = some (false, rest, slots)) :
    MatchOk none vars d plain rest slots r := ⟨[], slots, by simpa using h, by simp, by simp, by simp⟩

theorem MatchOk.leaf {b : Bool} {vars : List Nat} {d : Nat} {plain : Prop} {rest : List Byte} {slots : Nat → Val} {r : MRes} {spec : Option (List (Nat × Val))}
    (h : r = some (b, rest, slots)) (hs : spec = if b then some [] else none) : MatchOk spec vars d plain rest slots r := by
  cases b with
  | true => simp only [if_true] at hs; rw [hs]; exact h
  | false => simp at hs; rw [hs]; exact .fail_here h

theorem pdisp_lit8 (H : Heap) (K : List Val) (f : Nat) (bs : List Byte) (v : Val) (slots : Nat → Val) :
    matchPat H K (f + 1) (0x9B#8 :: bs) v slots = (readI bs).bind fun r => (K[r.1.toNat]?).map fun k => (isEqual k v, r.2, slots) := rfl

theorem pdisp_key8 (K : List Val) (search : Val → Option Val) (bs : List Byte) :
    matchKey K search (0x9B#8 :: bs) = (readI bs).bind fun r => (K[r.1.toNat]?).map fun v => (search v, r.2) := rfl

theorem litPattern_match (H : Heap) (K : List Val) (f i : Nat) (k v : Val) (slots : Nat → Val) (rest : List Byte) (hi : i < 2 ^ 64) (hk : K[i]? = some k) :
    matchPat H K (f + 1) (litPattern i ++ rest) v slots = some (isEqual k v, rest, slots) := by
  unfold litPattern
  split
  · rename_i h
    show ((K[(BitVec.ofNat 8 i).toNat]?).map fun k => (isEqual k v, rest, slots)) = _
    rw [BitVec.toNat_ofNat, Nat.mod_eq_of_lt (by omega), hk]; rfl
  · rw [List.cons_append, pdisp_lit8, readI_bytes, Option.bind_some]
    simp only [ofNat64 hi, hk, Option.map_some]

theorem matchKey_spec (K : List Val) (ix : Val → Nat) (search : Val → Option Val) (k : PKey) (rest : List Byte)
    (hk : ∀ v, k = .lit v → K[ix v]? = some v ∧ ix v < 2 ^ 64) : matchKey K search (compileKey ix k ++ rest) = some (search k.value, rest) := by
  cases k with
  | undef => rfl
  | bool b => cases b <;> rfl
  | lit v =>
    obtain ⟨h1, h2⟩ := hk v rfl
    simp only [compileKey, litPattern, PKey.value]
    split
    · rename_i h
      show ((K[(BitVec.ofNat 8 (ix v)).toNat]?).map fun k => (search k, rest)) = _
      rw [BitVec.toNat_ofNat, Nat.mod_eq_of_lt (by omega), h1]; rfl
    · rw [List.cons_append, pdisp_key8, readI_bytes, Option.bind_some]
      simp only [ofNat64 h2, h1, Option.map_some]

/-- the literals are the constants they are numbered as -/
def Numbered (K : List Val) (ix : Val → Nat) (vs : List Val) : Prop := ∀ v ∈ vs, K[ix v]? = some v ∧ ix v < 2 ^ 64

theorem Numbered.left {K : List Val} {ix : Val → Nat} {l l' : List Val} (h : Numbered K ix (l ++ l')) : Numbered K ix l := fun v hv => h v (by simp [hv])
theorem Numbered.right {K : List Val} {ix : Val → Nat} {l l' : List Val} (h : Numbered K ix (l ++ l')) : Numbered K ix l' := fun v hv => h v (by simp [hv])

theorem MatchOk.mono {spec : Option (List (Nat × Val))} {vars vars' : List Nat} {d d' : Nat} {plain plain' : Prop} {rest : List Byte} {slots : Nat → Val} {r : MRes}
    (h : MatchOk spec vars d plain rest slots r) (hv : ∀ s ∈ vars, s ∈ vars') (hd : d ≤ d') (hp : plain' → plain) :
    MatchOk spec vars' d' plain' rest slots r := by
  cases spec with
  | some l => exact h
  | none =>
    obtain ⟨us, s', h1, h2, h3, h4⟩ := h
    exact ⟨us, s', h1, fun u hu => (h2 u hu).mono hd, fun hh => h3 (hp hh), fun s hs => h4 s fun hm => hs (hv s hm)⟩

theorem pdisp_ls (H : Heap) (K : List Val) (f : Nat) (bs : List Byte) (v : Val) (slots : Nat → Val) :
    matchPat H K (f + 1) (0x9D#8 :: bs) v slots = (readI bs).bind fun r => match v with
      | .ref .list a =>
        if (H.list a).length ≠ r.1.toNat then (ffMany (ffPat f) r.1.toNat r.2).map fun bs => (false, bs, slots)
        else matchList (matchPat H K f) (ffPat f) r.1.toNat (H.list a) r.2 slots
      | _ => (ffMany (ffPat f) r.1.toNat r.2).map fun bs => (false, bs, slots) := rfl
theorem pdisp_vls (H : Heap) (K : List Val) (f : Nat) (bs : List Byte) (v : Val) (slots : Nat → Val) :
    matchPat H K (f + 1) (0xAD#8 :: bs) v slots = (readI bs).bind fun r => match v with
      | .ref .list a =>
        if (H.list a).length < r.1.toNat then (ffMany (ffPat f) r.1.toNat r.2).map fun bs => (false, bs, slots)
        else matchList (matchPat H K f) (ffPat f) r.1.toNat (H.list a) r.2 slots
      | _ => (ffMany (ffPat f) r.1.toNat r.2).map fun bs => (false, bs, slots) := rfl
theorem pdisp_table (H : Heap) (K : List Val) (f : Nat) (bs : List Byte) (v : Val) (slots : Nat → Val) :
    matchPat H K (f + 1) (0x9C#8 :: bs) v slots = (readI bs).bind fun r => match v with
      | .ref .table a =>
        if H.count a ≠ r.1.toNat / 2 then (ffMany (ffPat f) (r.1.toNat / 2 * 2) r.2).map fun bs => (false, bs, slots)
        else matchTable K (matchPat H K f) (ffPat f) (H.entry a) (r.1.toNat / 2) r.2 slots
      | _ => (ffMany (ffPat f) (r.1.toNat / 2 * 2) r.2).map fun bs => (false, bs, slots) := rfl
theorem pdisp_vtable (H : Heap) (K : List Val) (f : Nat) (bs : List Byte) (v : Val) (slots : Nat → Val) :
    matchPat H K (f + 1) (0xAC#8 :: bs) v slots = (readI bs).bind fun r => match v with
      | .ref .table a => matchTable K (matchPat H K f) (ffPat f) (H.entry a) (r.1.toNat / 2) r.2 slots
      | _ => (ffMany (ffPat f) (r.1.toNat / 2 * 2) r.2).map fun bs => (false, bs, slots) := rfl
theorem pdisp_alt (H : Heap) (K : List Val) (f : Nat) (bs : List Byte) (v : Val) (slots : Nat → Val) :
    matchPat H K (f + 1) (0xB0#8 :: bs) v slots = (matchPat H K f bs v slots).bind fun r => match r with
      | (true, bs, slots) => (ffPat f bs).map fun bs => (true, bs, slots)
      | (false, bs, slots) => matchPat H K f bs v slots := rfl

theorem ffPats_all (ix : Val → Nat) {f : Nat} (ps : Pats) (hf : ps.depth ≤ f) (hs : ps.Sized) (rest : List Byte) :
    ffMany (ffPat f) ps.length (compilePats ix ps ++ rest) = some rest := by
  rw [← Pats.units_flatten, ffMany_units hf _ _ _ (skips_pats ix ps hs) (by rw [Pats.units_length]), ← Pats.units_length ix, List.drop_length]; rfl

theorem ffKVs_all (ix : Val → Nat) {f : Nat} (ps : KVs) (hf : ps.depth ≤ f) (hs : ps.Sized) (rest : List Byte) :
    ffMany (ffPat f) (2 * ps.length) (compileKVs ix ps ++ rest) = some rest := by
  rw [← KVs.units_flatten, ffMany_units hf _ _ _ (skips_kvs ix ps hs) (by rw [KVs.units_length]), ← KVs.units_length ix, List.drop_length]; rfl

mutual
theorem matchPat_ok (H : Heap) (K : List Val) (ix : Val → Nat) : ∀ (p : Pat) (f : Nat) (v : Val) (slots : Nat → Val) (rest : List Byte), p.depth ≤ f →
    p.Balanced → p.LeftKeysMet H v → p.Sized → Numbered K ix p.lits →
    MatchOk (p.bindings H v) p.vars p.depth (p.KeysMet H v) rest slots (matchPat H K f (compilePat ix p ++ rest) v slots)
  | .undef, f, v, slots, rest, hf, _, _, _, _ => by
    obtain ⟨g, rfl⟩ : ∃ g, f = g + 1 := ⟨f - 1, by rw [Pat.depth] at hf; omega⟩
    refine .leaf (b := v == .undef) (by rw [compilePat]; rfl) ?_
    rw [Pat.bindings]; simp
  | .bool b, f, v, slots, rest, hf, _, _, _, _ => by
    obtain ⟨g, rfl⟩ : ∃ g, f = g + 1 := ⟨f - 1, by rw [Pat.depth] at hf; omega⟩
    refine .leaf (b := v == .bool b) (by rw [compilePat]; cases b <;> rfl) ?_
    rw [Pat.bindings]; simp
  | .lit c, f, v, slots, rest, hf, _, _, _, hn => by
    obtain ⟨g, rfl⟩ : ∃ g, f = g + 1 := ⟨f - 1, by rw [Pat.depth] at hf; omega⟩
    obtain ⟨h1, h2⟩ := hn c (by simp [Pat.lits])
    exact .leaf (b := isEqual c v) (by rw [compilePat]; exact litPattern_match H K g _ c v slots rest h2 h1) (by rw [Pat.bindings])
  | .any, f, v, slots, rest, hf, _, _, _, _ => by
    obtain ⟨g, rfl⟩ : ∃ g, f = g + 1 := ⟨f - 1, by rw [Pat.depth] at hf; omega⟩
    exact .leaf (b := true) (by rw [compilePat]; rfl) (by rw [Pat.bindings]; rfl)
  | .type t, f, v, slots, rest, hf, _, _, _, _ => by
    obtain ⟨g, rfl⟩ : ∃ g, f = g + 1 := ⟨f - 1, by rw [Pat.depth] at hf; omega⟩
    exact .leaf (b := t.of v) (by rw [compilePat]; cases t <;> rfl) (by rw [Pat.bindings])
  | .bind s, f, v, slots, rest, hf, _, _, hs, _ => by
    obtain ⟨g, rfl⟩ : ∃ g, f = g + 1 := ⟨f - 1, by rw [Pat.depth] at hf; omega⟩
    rw [Pat.Sized] at hs
    rw [Pat.bindings, compilePat]
    show some (true, rest, fun t => if t = (BitVec.ofNat 8 s).toNat then v else slots t) = some (true, rest, fun t => if t = s then v else slots t)
    rw [BitVec.toNat_ofNat, Nat.mod_eq_of_lt hs]
  | .ls rst ps, f, v, slots, rest, hf, hb, hp, hs, hn => by
    obtain ⟨g, rfl⟩ : ∃ g, f = g + 1 := ⟨f - 1, by rw [Pat.depth] at hf; omega⟩
    rw [Pat.depth] at hf
    have hg : ps.depth ≤ g := by omega
    rw [Pat.Balanced] at hb; simp only [Pat.LeftKeysMet] at hp; rw [Pat.Sized] at hs; rw [Pat.lits] at hn
    have hlen : (BitVec.ofNat 64 ps.length).toNat = ps.length := ofNat64 (by have := hs.1; omega)
    have hff := ffPats_all ix ps hg hs.2 rest
    have hread : readI (bytes8 (BitVec.ofNat 64 ps.length) ++ compilePats ix ps ++ rest) = some (BitVec.ofNat 64 ps.length, compilePats ix ps ++ rest) := by
      rw [List.append_assoc, readI_bytes]
    rw [Pat.vars, Pat.depth]
    have hlist : ∀ vs, ps.length ≤ vs.length → ps.LeftKeysMet H vs → MatchOk (ps.bindings H vs) ps.vars (ps.depth + 1) (ps.KeysMet H vs) rest slots
        (matchList (matchPat H K g) (ffPat g) ps.length vs (compilePats ix ps ++ rest) slots) := fun vs hvs hp =>
      (matchList_ok H K ix ps g vs slots rest hg hb hp hs.2 hn hvs).mono (fun _ h => h) (by omega) fun h => h
    rw [compilePat]
    cases rst with
    | false =>
      rw [if_neg (by simp), List.cons_append, pdisp_ls, hread, Option.bind_some]
      simp only [hlen, Pat.bindings, Pat.KeysMet]
      split
      · rename_i a
        dsimp only
        by_cases hc : (H.list a).length = ps.length
        · rw [if_pos (.inl hc), if_neg (fun h => h hc)]
          exact (hlist _ (by omega) (hp (.inl hc))).mono (fun _ h => h) (Nat.le_refl _) fun h => h (.inl hc)
        · rw [if_pos hc, if_neg (by simp [hc]), hff]
          exact .fail_here rfl
      · exact .fail_here (by simp only [hff, Option.map_some])
    | true =>
      rw [if_pos rfl, List.cons_append, pdisp_vls, hread, Option.bind_some]
      simp only [hlen, Pat.bindings, Pat.KeysMet]
      split
      · rename_i a
        dsimp only
        by_cases hc : (H.list a).length < ps.length
        · rw [if_pos hc, if_neg (by simp; omega), hff]
          exact .fail_here rfl
        · have hr : ps.length ≤ (H.list a).length := by omega
          rw [if_neg hc, if_pos (.inr ⟨trivial, hr⟩)]
          exact (hlist _ hr (hp (.inr ⟨rfl, hr⟩))).mono (fun _ h => h) (Nat.le_refl _) fun h => h (.inr ⟨trivial, hr⟩)
      · exact .fail_here (by simp only [hff, Option.map_some])
  | .table rst ps, f, v, slots, rest, hf, hb, hp, hs, hn => by
    obtain ⟨g, rfl⟩ : ∃ g, f = g + 1 := ⟨f - 1, by rw [Pat.depth] at hf; omega⟩
    rw [Pat.depth] at hf
    have hg : ps.depth ≤ g := by omega
    rw [Pat.Balanced] at hb; simp only [Pat.LeftKeysMet] at hp; rw [Pat.Sized] at hs; rw [Pat.lits] at hn
    have hlen : (BitVec.ofNat 64 (2 * ps.length)).toNat = 2 * ps.length := ofNat64 (by have := hs.1; omega)
    have hhalf : 2 * ps.length / 2 = ps.length := by omega
    have hff := ffKVs_all ix ps hg hs.2 rest
    have hread : readI (bytes8 (BitVec.ofNat 64 (2 * ps.length)) ++ compileKVs ix ps ++ rest) = some (BitVec.ofNat 64 (2 * ps.length), compileKVs ix ps ++ rest) := by
      rw [List.append_assoc, readI_bytes]
    rw [Pat.vars, Pat.depth]
    have htab : ∀ e, ps.LeftKeysMet H e → MatchOk (ps.bindings H e) ps.vars (ps.depth + 1) (ps.KeysMet H e) rest slots
        (matchTable K (matchPat H K g) (ffPat g) e ps.length (compileKVs ix ps ++ rest) slots) := fun e hp =>
      (matchTable_ok H K ix ps g e slots rest hg hb hp hs.2 hn).mono (fun _ h => h) (by omega) fun h => h
    rw [compilePat]
    cases rst with
    | false =>
      rw [if_neg (by simp), List.cons_append, pdisp_table, hread, Option.bind_some]
      simp only [hlen, hhalf, Pat.bindings, Pat.KeysMet, Nat.mul_comm ps.length 2]
      split
      · rename_i a
        dsimp only
        by_cases hc : H.count a = ps.length
        · rw [if_pos (.inl hc), if_neg (fun h => h hc)]
          exact (htab _ (hp (.inl hc))).mono (fun _ h => h) (Nat.le_refl _) fun h => h (.inl hc)
        · rw [if_pos hc, if_neg (by simp [hc]), hff]
          exact .fail_here rfl
      · exact .fail_here (by simp only [hff, Option.map_some])
    | true =>
      rw [if_pos rfl, List.cons_append, pdisp_vtable, hread, Option.bind_some]
      simp only [hlen, hhalf, Pat.bindings, Pat.KeysMet, Nat.mul_comm ps.length 2]
      split
      · rename_i a
        dsimp only
        rw [if_pos (.inr trivial)]
        exact (htab _ (hp (.inr rfl))).mono (fun _ h => h) (Nat.le_refl _) fun h => h (.inr trivial)
      · exact .fail_here (by simp only [hff, Option.map_some])
  | .alt p q, f, v, slots, rest, hf, hb, hp, hs, hn => by
    obtain ⟨g, rfl⟩ : ∃ g, f = g + 1 := ⟨f - 1, by rw [Pat.depth] at hf; omega⟩
    rw [Pat.depth] at hf
    rw [Pat.Balanced] at hb; rw [Pat.LeftKeysMet] at hp; rw [Pat.Sized] at hs; rw [Pat.lits] at hn
    have h1 := matchPat_ok H K ix p g v slots (compilePat ix q ++ rest) (by omega) hb.1 hp.1 hs.1 hn.left
    have hq := fun sl hp => matchPat_ok H K ix q g v sl rest (by omega) hb.2.1 hp hs.2 hn.right
    rw [Pat.vars, Pat.depth, Pat.KeysMet, compilePat, List.cons_append, List.append_assoc, pdisp_alt, Pat.bindings]
    cases hp1 : p.bindings H v with
    | some l =>
      rw [hp1] at h1
      simp only [MatchOk] at h1 ⊢
      rw [h1, Option.bind_some]
      simp only [skips_pat ix q hs.2 g (by omega) rest, Option.map_some]
    | none =>
      rw [hp1] at h1
      obtain ⟨us, sl, e1, _, e3, e4⟩ := h1
      have := e3 (hp.2 hp1).1
      subst this
      rw [e1, Option.bind_some]
      simp only [List.flatten_nil, List.nil_append]
      have h2 := hq sl (hp.2 hp1).2
      cases hq1 : q.bindings H v with
      | some l' =>
        rw [hq1] at h2
        simp only [MatchOk] at h2 ⊢
        rw [h2, bindAllIn_ext l' sl slots]
        intro s hsn
        refine e4 s fun hsv => hsn ?_
        exact (Pat.sure_bound H q v l' hq1).1 s (hb.2.2 s hsv)
      | none =>
        rw [hq1] at h2
        obtain ⟨us, sl', e1', e2', e3', e4'⟩ := h2
        refine ⟨us, sl', e1', fun u hu => (e2' u hu).mono (by omega), fun h => e3' (h.2 trivial), fun s hs => ?_⟩
        rw [e4' s (fun hm => hs (by simp [hm])), e4 s (fun hm => hs (by simp [hm]))]
theorem matchList_ok (H : Heap) (K : List Val) (ix : Val → Nat) : ∀ (ps : Pats) (f : Nat) (vs : List Val) (slots : Nat → Val) (rest : List Byte), ps.depth ≤ f →
    ps.Balanced → ps.LeftKeysMet H vs → ps.Sized → Numbered K ix ps.lits → ps.length ≤ vs.length →
    MatchOk (ps.bindings H vs) ps.vars ps.depth (ps.KeysMet H vs) rest slots (matchList (matchPat H K f) (ffPat f) ps.length vs (compilePats ix ps ++ rest) slots)
  | .nil, f, vs, slots, rest, _, _, _, _, _, _ => by rw [Pats.bindings, compilePats]; rfl
  | .cons p ps, f, [], slots, rest, _, _, _, _, _, hl => by simp [Pats.length] at hl
  | .cons p ps, f, v :: vs, slots, rest, hf, hb, hp, hs, hn, hl => by
    rw [Pats.depth] at hf
    rw [Pats.Balanced] at hb; rw [Pats.LeftKeysMet] at hp; rw [Pats.Sized] at hs; rw [Pats.lits] at hn
    rw [Pats.length, List.length_cons] at hl
    have h1 := matchPat_ok H K ix p f v slots (compilePats ix ps ++ rest) (by omega) hb.1 hp.1 hs.1 hn.left
    have h2 := fun sl hp => matchList_ok H K ix ps f vs sl rest (by omega) hb.2 hp hs.2 hn.right (by omega)
    rw [Pats.bindings, Pats.vars, Pats.depth, Pats.KeysMet, compilePats, List.append_assoc, Pats.length, matchList]
    cases hp1 : p.bindings H v with
    | some l =>
      rw [hp1] at h1
      simp only [MatchOk] at h1
      rw [h1, Option.bind_some, Option.bind_some]
      have h2 := h2 (bindAllIn slots l) (hp.2 (by rw [hp1]; rfl))
      cases hp2 : ps.bindings H vs with
      | some l' =>
        rw [hp2] at h2
        simp only [MatchOk, Option.map_some] at h2 ⊢
        rw [h2, bindAllIn_append]
      | none =>
        rw [hp2] at h2
        obtain ⟨us, sl', e1', e2', e3', e4'⟩ := h2
        refine ⟨us, sl', e1', fun u hu => (e2' u hu).mono (Nat.le_max_right _ _), fun h => e3' (h.2 rfl), fun s hs => ?_⟩
        rw [e4' s (fun hm => hs (by simp [hm]))]
        exact bindAllIn_other l slots s fun hm => hs (List.mem_append.2 (.inl ((Pat.sure_bound H p v l hp1).2 s hm)))
    | none =>
      rw [hp1] at h1
      obtain ⟨us, sl, e1, e2, e3, e4⟩ := h1
      rw [e1, Option.bind_some, Option.bind_none]
      have : us.flatten ++ (compilePats ix ps ++ rest) = (us ++ ps.units ix).flatten ++ rest := by
        rw [List.flatten_append, Pats.units_flatten, List.append_assoc]
      simp only [this]
      have hun : ∀ u ∈ us ++ ps.units ix, Skips (max p.depth ps.depth) u := fun u hu => by
        rcases List.mem_append.1 hu with hu | hu
        · exact (e2 u hu).mono (Nat.le_max_left _ _)
        · exact (skips_pats ix ps hs.2 u hu).mono (Nat.le_max_right _ _)
      rw [ffMany_units hf _ _ _ hun (by rw [List.length_append, Pats.units_length]; omega)]
      refine ⟨(us ++ ps.units ix).drop ps.length, sl, rfl, fun u hu => hun u (List.mem_of_mem_drop hu), fun h => ?_, fun s hs => e4 s fun hm => hs (by simp [hm])⟩
      rw [e3 h.1, List.nil_append, ← Pats.units_length ix, List.drop_length]
theorem matchTable_ok (H : Heap) (K : List Val) (ix : Val → Nat) : ∀ (ps : KVs) (f : Nat) (e : Val → Option Val) (slots : Nat → Val) (rest : List Byte), ps.depth ≤ f →
    ps.Balanced → ps.LeftKeysMet H e → ps.Sized → Numbered K ix ps.lits →
    MatchOk (ps.bindings H e) ps.vars ps.depth (ps.KeysMet H e) rest slots (matchTable K (matchPat H K f) (ffPat f) e ps.length (compileKVs ix ps ++ rest) slots)
  | .nil, f, e, slots, rest, _, _, _, _, _ => by rw [KVs.bindings, compileKVs]; rfl
  | .cons k p ps, f, e, slots, rest, hf, hb, hp, hs, hn => by
    rw [KVs.depth] at hf
    rw [KVs.Balanced] at hb; simp only [KVs.LeftKeysMet] at hp; rw [KVs.Sized] at hs; rw [KVs.lits] at hn
    have h1 := fun v hp => matchPat_ok H K ix p f v slots (compileKVs ix ps ++ rest) (by omega) hb.1 hp hs.1 hn.left.right
    have h2 := fun sl hp => matchTable_ok H K ix ps f e sl rest (by omega) hb.2 hp hs.2 hn.right
    have hk := matchKey_spec K ix e k (compilePat ix p ++ (compileKVs ix ps ++ rest)) (fun v hv => hn.left.left v (by subst hv; simp [PKey.lits]))
    simp only [KVs.KeysMet]
    rw [KVs.bindings, KVs.vars, KVs.depth, compileKVs, List.append_assoc, List.append_assoc, KVs.length, matchTable, hk, Option.bind_some]
    have hun2 : ∀ u ∈ ps.units ix, Skips (max p.depth ps.depth) u := fun u hu => (skips_kvs ix ps hs.2 u hu).mono (Nat.le_max_right _ _)
    cases he : e k.value with
    | none =>
      have : compilePat ix p ++ (compileKVs ix ps ++ rest) = (compilePat ix p :: ps.units ix).flatten ++ rest := by
        rw [List.flatten_cons, KVs.units_flatten, List.append_assoc]
      have hun : ∀ u ∈ compilePat ix p :: ps.units ix, Skips (max p.depth ps.depth) u := fun u hu => by
        rcases List.mem_cons.1 hu with rfl | hu
        · exact (skips_pat ix p hs.1).mono (Nat.le_max_left _ _)
        · exact hun2 u hu
      simp only [this]
      rw [ffMany_units hf _ _ _ hun (by rw [List.length_cons, KVs.units_length]; omega), Option.bind_none]
      exact ⟨_, slots, rfl, fun u hu => hun u (List.mem_of_mem_drop hu), False.elim, fun _ _ => rfl⟩
    | some v =>
      simp only [he] at hp
      have h1 := h1 v hp.1
      simp only [Option.bind_some]
      cases hp1 : p.bindings H v with
      | some l =>
        rw [hp1] at h1
        simp only [MatchOk] at h1
        rw [h1, Option.bind_some, Option.bind_some]
        have h2 := h2 (bindAllIn slots l) (hp.2 (by rw [hp1]; rfl))
        cases hp2 : ps.bindings H e with
        | some l' =>
          rw [hp2] at h2
          simp only [MatchOk, Option.map_some] at h2 ⊢
          rw [h2, bindAllIn_append]
        | none =>
          rw [hp2] at h2
          obtain ⟨us, sl', e1', e2', e3', e4'⟩ := h2
          refine ⟨us, sl', e1', fun u hu => (e2' u hu).mono (Nat.le_max_right _ _), fun h => e3' (h.2 rfl), fun s hs => ?_⟩
          rw [e4' s (fun hm => hs (by simp [hm]))]
          exact bindAllIn_other l slots s fun hm => hs (List.mem_append.2 (.inl ((Pat.sure_bound H p v l hp1).2 s hm)))
      | none =>
        rw [hp1] at h1
        obtain ⟨us, sl, e1, e2, e3, e4⟩ := h1
        rw [e1, Option.bind_some, Option.bind_none]
        have : us.flatten ++ (compileKVs ix ps ++ rest) = (us ++ ps.units ix).flatten ++ rest := by
          rw [List.flatten_append, KVs.units_flatten, List.append_assoc]
        simp only [this]
        have hun : ∀ u ∈ us ++ ps.units ix, Skips (max p.depth ps.depth) u := fun u hu => by
          rcases List.mem_append.1 hu with hu | hu
          · exact (e2 u hu).mono (Nat.le_max_left _ _)
          · exact hun2 u hu
        rw [ffMany_units hf _ _ _ hun (by rw [List.length_append, KVs.units_length]; omega)]
        refine ⟨_, sl, rfl, fun u hu => hun u (List.mem_of_mem_drop hu), fun h => ?_, fun s hs => e4 s fun hm => hs (by simp [hm])⟩
        rw [e3 h.1, List.nil_append, ← KVs.units_length ix, List.drop_length]
end

mutual
theorem noKeys_met (H : Heap) : ∀ (p : Pat) (v : Val), p.noKeys = true → p.KeysMet H v
  | .undef, _, _ => by rw [Pat.KeysMet]; trivial
  | .bool _, _, _ => by rw [Pat.KeysMet]; trivial
  | .lit _, _, _ => by rw [Pat.KeysMet]; trivial
  | .any, _, _ => by rw [Pat.KeysMet]; trivial
  | .type _, _, _ => by rw [Pat.KeysMet]; trivial
  | .bind _, _, _ => by rw [Pat.KeysMet]; trivial
  | .ls r ps, v, h => by
    rw [Pat.noKeys] at h
    simp only [Pat.KeysMet]
    split
    · exact fun _ => noKeys_mets H ps _ h
    · trivial
  | .table r .nil, v, h => by
    simp only [Pat.KeysMet]
    split
    · exact fun _ => by rw [KVs.KeysMet]; trivial
    · trivial
  | .table r (.cons _ _ _), v, h => by simp [Pat.noKeys] at h
  | .alt p q, v, h => by
    simp only [Pat.noKeys, Bool.and_eq_true] at h
    rw [Pat.KeysMet]
    exact ⟨noKeys_met H p v h.1, fun _ => noKeys_met H q v h.2⟩
theorem noKeys_mets (H : Heap) : ∀ (ps : Pats) (vs : List Val), ps.noKeys = true → ps.KeysMet H vs
  | .nil, _, _ => by rw [Pats.KeysMet]; trivial
  | .cons _ _, [], _ => by rw [Pats.KeysMet]; trivial
  | .cons p ps, v :: vs, h => by
    simp only [Pats.noKeys, Bool.and_eq_true] at h
    rw [Pats.KeysMet]
    exact ⟨noKeys_met H p v h.1, fun _ => noKeys_mets H ps vs h.2⟩
end

mutual
theorem plainLeft_met (H : Heap) : ∀ (p : Pat) (v : Val), p.PlainLeft → p.LeftKeysMet H v
  | .undef, _, _ => by rw [Pat.LeftKeysMet]; trivial
  | .bool _, _, _ => by rw [Pat.LeftKeysMet]; trivial
  | .lit _, _, _ => by rw [Pat.LeftKeysMet]; trivial
  | .any, _, _ => by rw [Pat.LeftKeysMet]; trivial
  | .type _, _, _ => by rw [Pat.LeftKeysMet]; trivial
  | .bind _, _, _ => by rw [Pat.LeftKeysMet]; trivial
  | .ls r ps, v, h => by
    rw [Pat.PlainLeft] at h
    simp only [Pat.LeftKeysMet]
    split
    · exact fun _ => plainLeft_mets H ps _ h
    · trivial
  | .table r kvs, v, h => by
    rw [Pat.PlainLeft] at h
    simp only [Pat.LeftKeysMet]
    split
    · exact fun _ => plainLeft_kvs H kvs _ h
    · trivial
  | .alt p q, v, h => by
    rw [Pat.PlainLeft] at h
    rw [Pat.LeftKeysMet]
    exact ⟨plainLeft_met H p v h.2.1, fun _ => ⟨noKeys_met H p v h.1, plainLeft_met H q v h.2.2⟩⟩
theorem plainLeft_mets (H : Heap) : ∀ (ps : Pats) (vs : List Val), ps.PlainLeft → ps.LeftKeysMet H vs
  | .nil, _, _ => by rw [Pats.LeftKeysMet]; trivial
  | .cons _ _, [], _ => by rw [Pats.LeftKeysMet]; trivial
  | .cons p ps, v :: vs, h => by
    rw [Pats.PlainLeft] at h
    rw [Pats.LeftKeysMet]
    exact ⟨plainLeft_met H p v h.1, fun _ => plainLeft_mets H ps vs h.2⟩
theorem plainLeft_kvs (H : Heap) : ∀ (ps : KVs) (e : Val → Option Val), ps.PlainLeft → ps.LeftKeysMet H e
  | .nil, _, _ => by rw [KVs.LeftKeysMet]; trivial
  | .cons k p ps, e, h => by
    rw [KVs.PlainLeft] at h
    simp only [KVs.LeftKeysMet]
    split
    · trivial
    · exact ⟨plainLeft_met H p _ h.1, fun _ => plainLeft_kvs H ps e h.2⟩
end

/-! ## Names -/

/-- what the checks of the compiler give -/
def Checked (bal : Prop) (vars sure : List Nat) (st st' : BindState) : Prop := bal ∧ (∀ s, s ∈ st'.seen ↔ s ∈ vars ∨ s ∈ st.seen) ∧ ∀ s ∈ vars, s ∈ sure

theorem Checked.nothing (st : BindState) : Checked True [] [] st st := ⟨trivial, by simp, by simp⟩

mutual
theorem checkPat_ok : ∀ (p : Pat) (st st' : BindState), checkPat p st = some st' → p.SameSides → Checked p.Balanced p.vars p.sure st st'
  | .undef, st, st', h, _ => by simp [checkPat] at h; subst h; simpa [Pat.Balanced, Pat.vars, Pat.sure] using Checked.nothing st
  | .bool _, st, st', h, _ => by simp [checkPat] at h; subst h; simpa [Pat.Balanced, Pat.vars, Pat.sure] using Checked.nothing st
  | .lit _, st, st', h, _ => by simp [checkPat] at h; subst h; simpa [Pat.Balanced, Pat.vars, Pat.sure] using Checked.nothing st
  | .any, st, st', h, _ => by simp [checkPat] at h; subst h; simpa [Pat.Balanced, Pat.vars, Pat.sure] using Checked.nothing st
  | .type _, st, st', h, _ => by simp [checkPat] at h; subst h; simpa [Pat.Balanced, Pat.vars, Pat.sure] using Checked.nothing st
  | .bind s, st, st', h, _ => by
    have : st'.seen = s :: st.seen := by
      rw [checkPat] at h
      split at h
      · split at h
        · simp at h
        · simp at h; subst h; rfl
      · split at h
        · simp at h; subst h; rfl
        · simp at h
    simp only [Checked, Pat.Balanced, Pat.vars, Pat.sure, this]
    simp
  | .ls _ ps, st, st', h, hs => by
    rw [checkPat] at h; rw [Pat.SameSides] at hs; rw [Pat.Balanced, Pat.vars, Pat.sure]
    exact checkPats_ok ps _ st st' h hs
  | .table _ ps, st, st', h, hs => by
    rw [checkPat] at h; rw [Pat.SameSides] at hs; rw [Pat.Balanced, Pat.vars, Pat.sure]
    exact checkKVs_ok ps _ st st' h hs
  | .alt p q, st, st', h, hs => by
    rw [checkPat] at h; rw [Pat.SameSides] at hs; rw [Pat.Balanced, Pat.vars, Pat.sure]
    obtain ⟨l, h1, h⟩ := Option.bind_eq_some_iff.1 h
    obtain ⟨r, h2, h⟩ := Option.bind_eq_some_iff.1 h
    split at h
    · rename_i hall
      obtain ⟨a1, a2, a3⟩ := checkPat_ok p _ l h1 hs.1
      obtain ⟨b1, b2, b3⟩ := checkPat_ok q _ r h2 hs.2.1
      have hl : ∀ s, s ∈ l.seen ↔ s ∈ p.vars := fun s => by simpa using a2 s
      have hr : ∀ s, s ∈ r.seen ↔ s ∈ q.vars := fun s => by simpa using b2 s
      have hpq : ∀ s ∈ p.vars, s ∈ q.sure := fun s hsp => by
        have := List.all_eq_true.1 hall s ((hl s).2 hsp)
        exact b3 s ((hr s).1 (by simpa using this))
      simp at h; subst h
      refine ⟨⟨a1, b1, hpq⟩, fun s => ?_, fun s hm => ?_⟩
      · simp only [List.mem_append, hl]
        exact ⟨fun h => h.elim (fun h => .inl (.inl h)) .inr, fun h => h.elim (fun h => h.elim .inl fun h => .inl (hs.2.2 s h)) .inr⟩
      · have hp : s ∈ p.vars := (List.mem_append.1 hm).elim id (hs.2.2 s)
        exact List.mem_filter.2 ⟨a3 s hp, by simpa using hpq s hp⟩
    · simp at h
theorem checkPats_ok : ∀ (ps : Pats) (old : Bool) (st st' : BindState), checkPats ps old st = some st' → ps.SameSides → Checked ps.Balanced ps.vars ps.sure st st'
  | .nil, old, st, st', h, _ => by simp [checkPats] at h; subst h; simpa [Pats.Balanced, Pats.vars, Pats.sure] using Checked.nothing st
  | .cons p ps, old, st, st', h, hs => by
    rw [checkPats] at h; rw [Pats.SameSides] at hs; rw [Pats.Balanced, Pats.vars, Pats.sure]
    obtain ⟨l, h1, h⟩ := Option.bind_eq_some_iff.1 h
    obtain ⟨a1, a2, a3⟩ := checkPat_ok p _ l h1 hs.1
    obtain ⟨b1, b2, b3⟩ := checkPats_ok ps old _ st' h hs.2
    refine ⟨⟨a1, b1⟩, fun s => ?_, fun s hm => ?_⟩
    · rw [b2 s]; show s ∈ ps.vars ∨ s ∈ l.seen ↔ _
      rw [a2 s, List.mem_append]
      exact ⟨fun h => h.elim (fun h => .inl (.inr h)) fun h => h.elim (fun h => .inl (.inl h)) .inr, fun h => h.elim (fun h => h.elim (fun h => .inr (.inl h)) .inl) fun h => .inr (.inr h)⟩
    · rcases List.mem_append.1 hm with hm | hm
      · exact List.mem_append.2 (.inl (a3 s hm))
      · exact List.mem_append.2 (.inr (b3 s hm))
theorem checkKVs_ok : ∀ (ps : KVs) (old : Bool) (st st' : BindState), checkKVs ps old st = some st' → ps.SameSides → Checked ps.Balanced ps.vars ps.sure st st'
  | .nil, old, st, st', h, _ => by simp [checkKVs] at h; subst h; simpa [KVs.Balanced, KVs.vars, KVs.sure] using Checked.nothing st
  | .cons _ p ps, old, st, st', h, hs => by
    rw [checkKVs] at h; rw [KVs.SameSides] at hs; rw [KVs.Balanced, KVs.vars, KVs.sure]
    obtain ⟨l, h1, h⟩ := Option.bind_eq_some_iff.1 h
    obtain ⟨a1, a2, a3⟩ := checkPat_ok p _ l h1 hs.1
    obtain ⟨b1, b2, b3⟩ := checkKVs_ok ps old _ st' h hs.2
    refine ⟨⟨a1, b1⟩, fun s => ?_, fun s hm => ?_⟩
    · rw [b2 s]; show s ∈ ps.vars ∨ s ∈ l.seen ↔ _
      rw [a2 s, List.mem_append]
      exact ⟨fun h => h.elim (fun h => .inl (.inr h)) fun h => h.elim (fun h => .inl (.inl h)) .inr, fun h => h.elim (fun h => h.elim (fun h => .inr (.inl h)) .inl) fun h => .inr (.inr h)⟩
    · rcases List.mem_append.1 hm with hm | hm
      · exact List.mem_append.2 (.inl (a3 s hm))
      · exact List.mem_append.2 (.inr (b3 s hm))
end

end Yasl
