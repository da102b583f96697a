import Verif.Model.IO
import Verif.Proofs.Str
import Mathlib.Data.List.Forall2
/-! # C65: `echo` and captured output -/
set_option autoImplicit false
namespace Yasl

/-- The first bytes of a block are `l`. -/
def Block.Starts (m : Block Byte) (l : List Byte) : Prop := ∃ r, m = l.map some ++ r

theorem Block.Starts.ld {m : Block Byte} {l : List Byte} (h : m.Starts l) {i : Nat} (hi : i < l.length) : m.ld i = .ok l[i] := by
  obtain ⟨r, rfl⟩ := h
  rw [Block.ld, List.getElem?_append_left (by simpa using hi)]
  simp [hi]

theorem Block.Starts.st {m : Block Byte} {l : List Byte} (h : m.Starts l) (hlt : l.length < m.length) (c : Byte) :
    ∃ m', m.st l.length c = .ok m' ∧ m'.Starts (l ++ [c]) ∧ m'.length = m.length := by
  obtain ⟨r, rfl⟩ := h
  refine ⟨_, by rw [Block.st, if_pos hlt], ?_, by simp⟩
  match r, hlt with
  | [], hlt => simp at hlt
  | x :: r, _ =>
    refine ⟨r, ?_⟩
    rw [List.set_append_right _ _ (by simp)]
    simp

theorem stripLoop_spec {src : YStr} {bs : List Byte} (h : src.Holds bs) (rem : Byte) : ∀ (k i : Nat) (out : List Byte) (dest : Block Byte),
    i + k ≤ bs.length → i + k ≤ dest.length → out.length ≤ i → dest.Starts out →
    ∃ dest', stripLoop src rem k i i out.length dest = .ok (dest', (out ++ ((bs.drop i).take k).filter (· ≠ rem)).length) ∧
      dest'.Starts (out ++ ((bs.drop i).take k).filter (· ≠ rem)) := by
  intro k
  induction k with
  | zero => intro i out dest _ _ _ hs; exact ⟨dest, by simp [stripLoop], by simpa using hs⟩
  | succ k ih =>
    intro i out dest hb hd ho hs
    have hi : i < bs.length := by omega
    have hdrop : (bs.drop i).take (k + 1) = bs[i] :: (bs.drop (i + 1)).take k := by
      rw [List.drop_eq_getElem_cons hi, List.take_succ_cons]
    rw [stripLoop, h.at hi, Out.bind_ok, hdrop]
    by_cases hc : bs[i] = rem
    · rw [if_pos hc]
      obtain ⟨d', e1, e2⟩ := ih (i + 1) out dest (by omega) (by omega) (by omega) hs
      have hf : (bs[i] :: (bs.drop (i + 1)).take k).filter (· ≠ rem) = ((bs.drop (i + 1)).take k).filter (· ≠ rem) := by
        rw [List.filter_cons_of_neg (by simpa using hc)]
      rw [hf]
      exact ⟨d', e1, e2⟩
    · rw [if_neg hc, Out.bind_ok]
      obtain ⟨m', e0, s0, l0⟩ := hs.st (by omega) bs[i]
      rw [e0, Out.bind_ok]
      obtain ⟨d', e1, e2⟩ := ih (i + 1) (out ++ [bs[i]]) m' (by omega) (by omega) (by simp; omega) s0
      have hf : out ++ (bs[i] :: (bs.drop (i + 1)).take k).filter (· ≠ rem) = out ++ [bs[i]] ++ ((bs.drop (i + 1)).take k).filter (· ≠ rem) := by
        rw [List.filter_cons_of_pos (by simpa using hc)]; simp
      rw [hf]
      refine ⟨d', ?_, e2⟩
      rw [← e1]; simp

theorem formatEcho_spec {m : Block Byte} {l : List Byte} (h : m.Starts l) (h0 : 0#8 ∉ l) : ∀ (k i : Nat), i + k = l.length →
    formatEcho m k i = .ok (l.drop i ++ [10#8]) := by
  intro k
  induction k with
  | zero => intro i hi; rw [formatEcho, List.drop_eq_nil_of_le (by omega)]; rfl
  | succ k ih =>
    intro i hi
    have hlt : i < l.length := by omega
    rw [formatEcho, h.ld hlt, Out.bind_ok, if_neg (fun e => h0 (by rw [← e]; exact List.getElem_mem _)), ih (i + 1) (by omega), Out.bind_ok]
    conv_rhs => rw [List.drop_eq_getElem_cons hlt]
    rfl

/-- The captured output is `l`. -/
structure StrIO.Holds (io : StrIO) (l : List Byte) : Prop where
  len : io.len = l.length
  starts : io.string.Starts l

theorem StrIO.Holds.print {io : StrIO} {l : List Byte} (h : io.Holds l) (msg : List Byte) (hm : msg.length < 2 ^ 31) :
    ∃ io', io.print msg = .ok io' ∧ io'.Holds (l ++ msg) := by
  obtain ⟨r, hr⟩ := h.starts
  have hlen := h.len
  have hre : (Block.realloc io.string (io.len + msg.length + 1)).length = io.len + msg.length + 1 := by
    rw [Block.realloc, List.length_append, List.length_take, List.length_replicate]; omega
  have htake : (Block.realloc io.string (io.len + msg.length + 1)).take io.len = l.map some := by
    rw [Block.realloc, hr, List.take_append_of_le_length (by simp; omega), List.take_take, min_eq_left (by omega), hlen,
      List.take_append_of_le_length (by simp), List.take_of_length_le (by simp)]
  rw [StrIO.print, if_neg (by omega)]
  simp only
  rw [Block.memcpy, if_pos (by rw [hre]; simp; omega), Out.bind_ok, Nat.add_sub_cancel]
  refine ⟨_, rfl, ⟨by simp [hlen], ⟨[some 0#8] ++ (Block.realloc io.string (io.len + msg.length + 1)).drop (io.len + (msg ++ [0#8]).length), ?_⟩⟩⟩
  rw [htake]; simp

theorem sizeOfInt_small {n : Nat} (h : n < 2 ^ 31) : sizeOfInt n = n := by
  unfold sizeOfInt
  rw [BitVec.signExtend_eq_setWidth_of_msb_false]
  · simp only [BitVec.toNat_setWidth, BitVec.toNat_ofNat]
    omega
  · rw [BitVec.msb_eq_false_iff_two_mul_lt]
    simp only [BitVec.toNat_setWidth, BitVec.toNat_ofNat]
    omega

theorem echo_step {io : StrIO} {l : List Byte} (h : io.Holds l) {v : YStr} {bs : List Byte} (hv : v.Holds bs) (hb : bs.length < 2 ^ 31 - 1)
    (scratch : Block Byte) (hs : scratch.length = scratchSize) :
    ∃ io', echo scratch io v = .ok io' ∧ io'.Holds (l ++ (bs.filter (· ≠ 0#8) ++ [10#8])) := by
  have hsz : sizeOfInt v.len = bs.length := by rw [hv.len, sizeOfInt_small (by omega)]
  unfold echo
  simp only [hsz]
  generalize hd : (if bs.length > scratchSize then Block.malloc bs.length else scratch) = dest
  have hdl : bs.length ≤ dest.length := by
    subst hd
    split
    · simp [Block.malloc]
    · omega
  obtain ⟨d', e1, e2⟩ := stripLoop_spec hv 0#8 bs.length 0 [] dest (by omega) (by omega) (by simp) ⟨dest, by simp⟩
  simp only [List.drop_zero, List.take_length, List.nil_append] at e1 e2
  rw [ioStrStripChar, show stripLoop v 0#8 bs.length 0 0 0 dest = _ from e1, Out.bind_ok]
  rw [formatEcho_spec e2 (by simp) _ 0 (by simp), Out.bind_ok]
  refine h.print _ ?_
  rw [List.drop_zero, List.length_append]
  refine lt_of_le_of_lt (Nat.add_le_add_right (List.length_filter_le _ _) _) ?_
  simp only [List.length_cons, List.length_nil]; omega

/-- Executing a list of `echo` statements, one after the other; the scratch buffer may hold anything before each. -/
inductive EchoRun : StrIO → List YStr → StrIO → Prop
  | nil (io : StrIO) : EchoRun io [] io
  | cons {io io1 io2 : StrIO} {v : YStr} {vs : List YStr} (scratch : Block Byte) (hs : scratch.length = scratchSize)
      (h1 : echo scratch io v = .ok io1) (h2 : EchoRun io1 vs io2) : EchoRun io (v :: vs) io2

/-- C65, restricted to strings shorter than 2^31 - 1 bytes: `echo` never has undefined behaviour, whatever the scratch buffer holds; after any
history of `echo` statements, the captured output is the concatenation of the strings without their NUL bytes, each followed by a
newline.  Missing: longer strings, for which it is false (next theorem). -/
theorem C65_echo_partial (vs : List YStr) (bss : List (List Byte)) (h : List.Forall₂ YStr.Holds vs bss) (hb : ∀ bs ∈ bss, bs.length < 2 ^ 31 - 1)
    (io : StrIO) (hr : EchoRun StrIO.init vs io) :
    io.contents = .ok (bss.map fun bs => bs.filter (· ≠ 0#8) ++ [10#8]).flatten := by
  have key : ∀ (vs : List YStr) (bss : List (List Byte)) (io0 io : StrIO) (l : List Byte), io0.Holds l → List.Forall₂ YStr.Holds vs bss →
      (∀ bs ∈ bss, bs.length < 2 ^ 31 - 1) → EchoRun io0 vs io → io.Holds (l ++ (bss.map fun bs => bs.filter (· ≠ 0#8) ++ [10#8]).flatten) := by
    intro vs bss io0 io l h0 hf hb hr
    induction hr generalizing bss l with
    | nil io => cases hf; simpa using h0
    | @cons io io1 io2 v vs scratch hs h1 _ ih =>
      cases hf with
      | @cons _ bs _ bss hv hf =>
        obtain ⟨io', e1, e2⟩ := echo_step h0 hv (hb bs (by simp)) scratch hs
        rw [h1] at e1
        obtain rfl := Out.ok.inj e1
        have := ih bss _ e2 hf (fun x hx => hb x (by simp [hx]))
        simpa using this
  have hh := key vs bss StrIO.init io [] ⟨rfl, [], rfl⟩ h hb hr
  simp only [List.nil_append] at hh
  generalize (bss.map fun bs => bs.filter (· ≠ 0#8) ++ [10#8]).flatten = l at hh
  have go : ∀ (k i : Nat), i + k = l.length → StrIO.contents.go io k i = .ok (l.drop i) := by
    intro k
    induction k with
    | zero => intro i hi; rw [StrIO.contents.go, List.drop_eq_nil_of_le (by omega)]
    | succ k ih =>
      intro i hi
      have hlt : i < l.length := by omega
      rw [StrIO.contents.go, hh.starts.ld hlt, Out.bind_ok, ih (i + 1) (by omega), Out.bind_ok]
      conv_rhs => rw [List.drop_eq_getElem_cons hlt]
  rw [StrIO.contents, hh.len, go l.length 0 (by omega), List.drop_zero]

/-- C65: an `echo` of a string shorter than 2^31 - 1 bytes always completes. -/
theorem C65_echo_completes (io : StrIO) (l : List Byte) (h : io.Holds l) (v : YStr) (bs : List Byte) (hv : v.Holds bs) (hb : bs.length < 2 ^ 31 - 1)
    (scratch : Block Byte) (hs : scratch.length = scratchSize) : ∃ io', echo scratch io v = .ok io' :=
  let ⟨io', h, _⟩ := echo_step h hv hb scratch hs
  ⟨io', h⟩

/-- Case: two strings, one with a NUL byte. -/
example : (echo (Block.malloc scratchSize) StrIO.init (YStr.lit [97#8, 0#8, 98#8])).bind (fun io =>
    (echo (Block.malloc scratchSize) io (YStr.heap [99#8])).bind StrIO.contents) = .ok [97#8, 98#8, 10#8, 99#8, 10#8] := by decide +kernel

/-- C65 is false for very long strings: the length is cut to 32 bits, so `echo` of any string of 2^32 bytes prints an empty line. -/
theorem C65_long_string_lost (bs : List Byte) (h : bs.length = 2 ^ 32) (scratch : Block Byte) :
    (echo scratch StrIO.init (YStr.heap bs)).bind StrIO.contents = .ok [10#8] := by
  have h0 : sizeOfInt (YStr.heap bs).len = 0 := by
    rw [(YStr.holds_heap bs).len, h]; decide
  unfold echo
  simp only [h0]
  rw [if_neg (by decide)]
  rfl

end Yasl
