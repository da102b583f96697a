import Verif.Model.ByteBuffer
import Mathlib.Data.List.Basic
import Mathlib.Tactic.IntervalCases
import Verif.Props.Varint
/-! # C19 — byte buffers are append-only logs without overflow -/
namespace Yasl

/-! ## Specification -/

/-- What an operation does to the byte string held in the buffer (`none` bytes are bytes not written yet). -/
def BBOp.spec (contents : List (Option (BitVec 8))) : BBOp → List (Option (BitVec 8))
  | .extend bs => contents ++ bs.map some
  | .addByte b => contents ++ [some b]
  | .addVint v => contents ++ (vintEncode v).map some
  | .addInt v => contents ++ (bytes8 v).map some
  | .rewrite i v => contents.take i ++ (bytes8 v).map some ++ contents.drop (i + 8)

/-- Back-patching must address eight bytes already in the buffer; appends are always allowed. -/
def BBOp.ok (contents : List (Option (BitVec 8))) : BBOp → Prop
  | .rewrite i _ => i + 8 ≤ contents.length
  | _ => True

/-- The byte string after a history. -/
def bbSpec (contents : List (Option (BitVec 8))) : List BBOp → List (Option (BitVec 8))
  | [] => contents
  | op :: ops => bbSpec (op.spec contents) ops

/-- A history in which every back-patch is in range. -/
def bbOk (contents : List (Option (BitVec 8))) : List BBOp → Prop
  | [] => True
  | op :: ops => op.ok contents ∧ bbOk (op.spec contents) ops

/-! ## Proof -/

/-- the buffer holds exactly `contents`, inside its allocation -/
structure ByteBuffer.Holds (bb : ByteBuffer) (contents : List (Option (BitVec 8))) : Prop where
  len : bb.mem.length = bb.size
  cnt : bb.count = contents.length
  le : bb.count ≤ bb.size
  pos : 1 ≤ bb.size
  pre : bb.mem.take bb.count = contents

theorem memWrite_append {mem : List (Option (BitVec 8))} {c : Nat} {bytes : List (BitVec 8)}
    (h : c + bytes.length ≤ mem.length) :
    ∃ m, memWrite mem c bytes = some m ∧ m.length = mem.length ∧
      m.take (c + bytes.length) = mem.take c ++ bytes.map some := by
  refine ⟨_, by rw [memWrite, if_pos h], ?_, ?_⟩
  · simp; omega
  · rw [List.take_left' (by simp; omega)]

theorem reallocMem_length (mem : List (Option (BitVec 8))) (n : Nat) (h : mem.length ≤ n) :
    (reallocMem mem n).length = n := by
  simp [reallocMem]; omega

theorem reallocMem_take (mem : List (Option (BitVec 8))) (n c : Nat) (h : mem.length ≤ n) (hc : c ≤ mem.length) :
    (reallocMem mem n).take c = mem.take c := by
  simp only [reallocMem]
  rw [List.take_append_of_le_length (by simp; omega), List.take_take, Nat.min_eq_left (by omega)]

theorem append_step {bb : ByteBuffer} {contents : List (Option (BitVec 8))} (h : bb.Holds contents)
    (bytes : List (BitVec 8)) :
    ∃ bb', bb.extend bytes = some bb' ∧ bb'.Holds (contents ++ bytes.map some) := by
  obtain ⟨len, cnt, le, pos, pre⟩ := h
  unfold ByteBuffer.extend
  by_cases hg : bb.size < bb.count + bytes.length
  · have hrl := reallocMem_length bb.mem ((bb.count + bytes.length) * 2) (by omega)
    have hrt := reallocMem_take bb.mem ((bb.count + bytes.length) * 2) bb.count (by omega) (by omega)
    obtain ⟨m, hm, hl, ht⟩ := memWrite_append (mem := reallocMem bb.mem ((bb.count + bytes.length) * 2))
      (c := bb.count) (bytes := bytes) (by omega)
    simp only [hg, if_true, hm, Option.map_some]
    refine ⟨_, rfl, ?_⟩
    constructor
    · simp; omega
    · simp [cnt]
    · simp; omega
    · simp; omega
    · simp [ht, hrt, pre]
  · obtain ⟨m, hm, hl, ht⟩ := memWrite_append (mem := bb.mem) (c := bb.count) (bytes := bytes) (by omega)
    simp only [hg, if_false, hm, Option.map_some]
    refine ⟨_, rfl, ?_⟩
    constructor
    · simp; omega
    · simp [cnt]
    · simp; omega
    · simp; omega
    · simp [ht, pre]

theorem addByte_step {bb : ByteBuffer} {contents : List (Option (BitVec 8))} (h : bb.Holds contents) (b : BitVec 8) :
    ∃ bb', bb.addByte b = some bb' ∧ bb'.Holds (contents ++ [some b]) := by
  obtain ⟨len, cnt, le, pos, pre⟩ := h
  unfold ByteBuffer.addByte
  by_cases hg : bb.size ≤ bb.count
  · have hrl := reallocMem_length bb.mem (bb.count * 2) (by omega)
    have hrt := reallocMem_take bb.mem (bb.count * 2) bb.count (by omega) (by omega)
    obtain ⟨m, hm, hl, ht⟩ := memWrite_append (mem := reallocMem bb.mem (bb.count * 2))
      (c := bb.count) (bytes := [b]) (by simp; omega)
    simp only [hg, if_true, hm, Option.map_some]
    refine ⟨_, rfl, ?_⟩
    simp only [List.length_cons, List.length_nil, Nat.zero_add, List.map_cons, List.map_nil] at ht
    constructor
    · simp; omega
    · simp [cnt]
    · simp; omega
    · simp; omega
    · simp [ht, hrt, pre]
  · obtain ⟨m, hm, hl, ht⟩ := memWrite_append (mem := bb.mem) (c := bb.count) (bytes := [b]) (by simp; omega)
    simp only [hg, if_false, hm, Option.map_some]
    refine ⟨_, rfl, ?_⟩
    simp only [List.length_cons, List.length_nil, Nat.zero_add, List.map_cons, List.map_nil] at ht
    constructor
    · simp; omega
    · simp [cnt]
    · simp; omega
    · simp; omega
    · simp [ht, pre]

theorem rewrite_step {bb : ByteBuffer} {contents : List (Option (BitVec 8))} (h : bb.Holds contents)
    (i : Nat) (v : BitVec 64) (hi : i + 8 ≤ contents.length) :
    ∃ bb', bb.rewriteInt i v = some bb' ∧
      bb'.Holds (contents.take i ++ (bytes8 v).map some ++ contents.drop (i + 8)) := by
  obtain ⟨len, cnt, le, pos, pre⟩ := h
  have h8 : (bytes8 v).length = 8 := rfl
  have hb : i + (bytes8 v).length ≤ bb.mem.length := by omega
  unfold ByteBuffer.rewriteInt
  simp only [memWrite, hb, if_true, Option.map_some]
  refine ⟨_, rfl, ?_⟩
  subst pre
  constructor
  · simp [h8]; omega
  · simp [h8]; omega
  · simp; omega
  · simp; omega
  · have e1 : List.take bb.count (bb.mem.take i ++ (bytes8 v).map some ++ bb.mem.drop (i + 8))
        = bb.mem.take i ++ (bytes8 v).map some ++ (bb.mem.drop (i + 8)).take (bb.count - (i + 8)) := by
      rw [List.take_append]
      have : (List.take i bb.mem ++ (bytes8 v).map some).length = i + 8 := by simp [h8]; omega
      rw [this, List.take_of_length_le (by omega)]
    simp only [h8]
    rw [e1, List.take_take, Nat.min_eq_left (by omega), List.drop_take]

theorem addVint_eq_extend (bb : ByteBuffer) (v : BitVec 64) : bb.addVint v = bb.extend (vintEncode v) := rfl
theorem addInt_eq_extend (bb : ByteBuffer) (v : BitVec 64) : bb.addInt v = bb.extend (bytes8 v) := rfl

theorem step_holds {bb : ByteBuffer} {contents : List (Option (BitVec 8))} (h : bb.Holds contents) (op : BBOp)
    (hop : op.ok contents) : ∃ bb', bb.step op = some bb' ∧ bb'.Holds (op.spec contents) := by
  cases op with
  | extend bs => exact append_step h bs
  | addByte b => exact addByte_step h b
  | addVint v => simpa [ByteBuffer.step, addVint_eq_extend, BBOp.spec] using append_step h (vintEncode v)
  | addInt v => simpa [ByteBuffer.step, addInt_eq_extend, BBOp.spec] using append_step h (bytes8 v)
  | rewrite i v => exact rewrite_step h i v hop

theorem run_holds {bb : ByteBuffer} {contents : List (Option (BitVec 8))} (h : bb.Holds contents) (ops : List BBOp)
    (hok : bbOk contents ops) : ∃ bb', bb.run ops = some bb' ∧ bb'.Holds (bbSpec contents ops) := by
  induction ops generalizing bb contents with
  | nil => exact ⟨bb, rfl, h⟩
  | cons op ops ih =>
    obtain ⟨bb1, h1, hh1⟩ := step_holds h op hok.1
    obtain ⟨bb2, h2, hh2⟩ := ih hh1 hok.2
    exact ⟨bb2, by simp [ByteBuffer.run, h1, h2], hh2⟩

/-! ## Properties -/

/-- C19: on a buffer created with a positive initial size (every buffer that is written to in the code base), no
history of appends and in-range back-patches writes out of bounds, and afterwards the buffer's first `count` bytes are
the concatenation of what was appended, with exactly the addressed bytes patched. -/
theorem C19_bytebuffer_log_partial (size : Nat) (hs : 0 < size) (ops : List BBOp) (hok : bbOk [] ops) :
    ∃ bb, (ByteBuffer.new size).run ops = some bb ∧ bb.mem.length = bb.size ∧ bb.count ≤ bb.size ∧
      bb.mem.take bb.count = bbSpec [] ops := by
  have h0 : (ByteBuffer.new size).Holds [] := by
    constructor <;> simp [ByteBuffer.new]; omega
  obtain ⟨bb, h, hh⟩ := run_holds h0 ops hok
  exact ⟨bb, h, hh.len, hh.le, hh.pre⟩

/-- C19: the same for the compiler's constant header, which starts as 24 reserved bytes in a 24-byte allocation
(compiler/compiler.h:29, yasl.c:27). -/
theorem C19_header_log (ops : List BBOp) (hok : bbOk (List.replicate 24 none) ops) :
    ∃ bb, ({ ByteBuffer.new 24 with count := 24 }).run ops = some bb ∧ bb.count ≤ bb.mem.length ∧
      bb.mem.take bb.count = bbSpec (List.replicate 24 none) ops := by
  have h0 : ByteBuffer.Holds { ByteBuffer.new 24 with count := 24 } (List.replicate 24 none) := by
    constructor <;> simp [ByteBuffer.new]
  obtain ⟨bb, h, hh⟩ := run_holds h0 ops hok
  exact ⟨bb, h, by have := hh.len; have := hh.le; omega, hh.pre⟩

/-- C19 fails for a buffer created with size 0: the first `add_byte` reallocates to 0 bytes and then writes. -/
theorem C19_zero_size_overflow (b : BitVec 8) : (ByteBuffer.new 0).run [.addByte b] = none := by
  simp [ByteBuffer.run, ByteBuffer.step, ByteBuffer.addByte, ByteBuffer.new, memWrite, reallocMem]

/-- C19: an 8-byte integer written (or patched) into a buffer is read back unchanged. -/
theorem C19_int_roundtrip (v : BitVec 64) (rest : List (BitVec 8)) : readInt8 (bytes8 v ++ rest) = some v := by
  simp only [bytes8, List.cons_append, readInt8, Option.some.injEq]
  apply BitVec.eq_of_getLsbD_eq
  intro i hi
  simp only [BitVec.getLsbD_or, BitVec.getLsbD_setWidth, BitVec.getLsbD_shiftLeft, BitVec.getLsbD_extractLsb']
  interval_cases i <;> simp

/-- a growing history that meets the hypotheses, and the bytes it leaves -/
example : bbOk [] [.addByte 1#8, .addInt 5#64, .extend [2#8, 3#8], .rewrite 1 7#64] := by
  simp [bbOk, BBOp.ok, BBOp.spec, bytes8]
example : ∃ bb, (ByteBuffer.new 1).run [.addByte 1#8, .addInt 5#64, .extend [2#8, 3#8], .rewrite 1 7#64] = some bb ∧
    bb.mem.take bb.count = ([1, 7, 0, 0, 0, 0, 0, 0, 0, 2, 3] : List (BitVec 8)).map some := by
  refine ⟨_, rfl, ?_⟩; decide +kernel

end Yasl
