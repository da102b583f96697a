import Verif.Model.File
import Verif.Props.Require
import Verif.Props.IO
set_option autoImplicit false
/-!
# C99–C101: files
-/
namespace Yasl

/-- The file seen by the specification. -/
def CFile.spec (f : CFile) : FSpec := { content := f.content, pos := f.pos }

theorem takeBlock_spec {m : Block Byte} {l : List Byte} (h : m.Starts l) : ∀ (k i : Nat), i + k = l.length → takeBlock m k i = .ok (l.drop i)
  | 0, i, hi => by rw [List.drop_eq_nil_of_le (by omega)]; rfl
  | k + 1, i, hi => by
    rw [takeBlock, h.ld (by omega), Out.bind_ok, takeBlock_spec h k (i + 1) (by omega), Out.bind_ok, List.drop_eq_getElem_cons (i := i) (by omega)]

theorem Block.Starts.grow {m : Block Byte} {l : List Byte} (h : m.Starts l) {n : Nat} (hn : m.length ≤ n) : (Block.realloc m n).Starts l := by
  obtain ⟨r, rfl⟩ := h
  refine ⟨r ++ List.replicate (n - (l.map some ++ r : Block Byte).length) none, ?_⟩
  unfold Block.realloc
  rw [List.take_of_length_le hn, List.append_assoc]

theorem realloc_length {m : Block Byte} {n : Nat} (hn : m.length ≤ n) : (Block.realloc m n).length = n := by
  unfold Block.realloc; simp; omega

theorem Block.Starts.store {m : Block Byte} {l : List Byte} (h : m.Starts l) (hlt : l.length < m.length) (c : Byte) :
    ∃ m', m.st l.length c = .ok m' ∧ m'.Starts (l ++ [c]) ∧ m'.length = m.length := by
  obtain ⟨r, rfl⟩ := h
  cases r with
  | nil => simp at hlt
  | cons x r =>
    refine ⟨l.map some ++ some c :: r, ?_, ⟨r, by simp⟩, by simp⟩
    unfold Block.st
    rw [if_pos hlt, List.set_append_right _ _ (by simp)]
    simp

/-- The loop that reads a line: whatever its length, no access out of the buffer. -/
theorem readLineLoop_spec : ∀ (s : List Byte) (k : Nat) (f : CFile) (m : Block Byte) (size : Nat) (acc : List Byte), s = f.content.drop f.pos → s.length < k →
    f.isOpen = true → f.canRead = true → f.last ≠ .output → m.Starts acc → m.length = size → 0 < size → acc.length ≤ size →
    ∃ m', readLineLoop k f m size acc.length =
        some (.ok ({ f with pos := if 10#8 ∈ s then f.pos + (s.takeWhile (· != 10#8)).length + 1 else f.pos + s.length, last := if 10#8 ∈ s then .input else .none_ },
          m', acc.length + (s.takeWhile (· != 10#8)).length)) ∧ m'.Starts (acc ++ s.takeWhile (· != 10#8))
  | s, 0, f, m, size, acc, hs, hk, ho, hr, hl, hm, hsz, hp, ha => by omega
  | [], k + 1, f, m, size, acc, hs, hk, ho, hr, hl, hm, hsz, hp, ha => by
    have hge : f.content[f.pos]? = none := by
      rw [List.getElem?_eq_none]; have := congrArg List.length hs; simp at this; omega
    refine ⟨m, ?_, by simpa using hm⟩
    simp [readLineLoop, CFile.fgetc, ho, hr, hl, hge]
  | c :: s, k + 1, f, m, size, acc, hs, hk, ho, hr, hl, hm, hsz, hp, ha => by
    have hget : f.content[f.pos]? = some c := by
      have := congrArg (fun l => l[0]?) hs
      simpa using this.symm
    have htail : s = f.content.drop (f.pos + 1) := by
      have := congrArg List.tail hs
      simpa using this
    have hgc : f.fgetc = .ok (some c, { f with pos := f.pos + 1, last := .input }) := by simp [CFile.fgetc, ho, hr, hl, hget]
    rw [readLineLoop, hgc]
    simp only [Run.bind_ok]
    by_cases hc : c = 10#8
    · subst hc
      exact ⟨m, by simp, by simpa using hm⟩
    · rw [if_neg hc]
      obtain ⟨m1, hm1, hlen1, hsz1, hbig⟩ : ∃ m1, (if acc.length = size then Block.realloc m (if acc.length = size then size * 2 else size) else m) = m1 ∧
          m1.length = (if acc.length = size then size * 2 else size) ∧ m1.Starts acc ∧ acc.length < m1.length := by
        by_cases he : acc.length = size
        · rw [if_pos he, if_pos he]
          have hl2 : (Block.realloc m (size * 2)).length = size * 2 := realloc_length (by omega)
          exact ⟨_, rfl, hl2, hm.grow (by omega), by rw [hl2]; omega⟩
        · rw [if_neg he, if_neg he]
          exact ⟨_, rfl, hsz, hm, by omega⟩
      obtain ⟨m2, hst, hS2, hl2⟩ := hsz1.store hbig c
      rw [hm1, hst]
      simp only [Run.bind_ok]
      obtain ⟨m', h1, h2⟩ := readLineLoop_spec s k { f with pos := f.pos + 1, last := .input } m2 (if acc.length = size then size * 2 else size) (acc ++ [c]) htail
        (by simp at hk; omega) ho hr (by simp) hS2 (by rw [hl2, hlen1]) (by split <;> omega) (by rw [← hlen1]; simp; omega)
      refine ⟨m', ?_, ?_⟩
      · simp only [List.length_append, List.length_singleton] at h1
        rw [h1]
        have hmem : (10#8 ∈ c :: s) ↔ 10#8 ∈ s := by simp [Ne.symm hc]
        simp only [hmem]
        simp only [List.takeWhile_cons, bne_iff_ne, ne_eq, hc, not_false_eq_true, if_true, List.length_cons]
        congr 3
        · simp only [CFile.mk.injEq, true_and, and_true]
          split <;> omega
        · simp only [Prod.mk.injEq, true_and]; omega
      · simpa [hc] using h2

/-- A file that may be read now: open, opened for reading, and not just written. -/
structure CFile.Readable (f : CFile) : Prop where
  isOpen : f.isOpen = true
  canRead : f.canRead = true
  last : f.last ≠ .output

/-- The two ways to ask for a line. -/
def lineModes : List SArg := [.undef, .str [0x6C#8]]

/-- **C99** reading a line, for every file and every length of the line: the bytes up to the next line feed or the end, and the position moves past them. -/
theorem C99_read_line (f : CFile) (h : f.Readable) (arg : SArg) (ha : arg ∈ lineModes) (fuel : Nat) (hf : f.content.length < fuel) :
    ∃ f', ioRead fuel f arg = some (.ok (f', .str f.spec.line)) ∧ f'.spec = f.spec.afterLine ∧ f'.Readable := by
  have hmode : readMode arg = .ok modeLine := by
    simp only [lineModes, List.mem_cons, List.not_mem_nil, or_false] at ha
    rcases ha with rfl | rfl <;> decide +kernel
  obtain ⟨m', h1, h2⟩ := readLineLoop_spec (f.content.drop f.pos) fuel f (Block.malloc 16) 16 [] rfl (by simp; omega) h.isOpen h.canRead h.last
    ⟨Block.malloc 16, by simp⟩ (by simp [Block.malloc]) (by omega) (by simp)
  simp only [List.length_nil, Nat.zero_add, List.nil_append] at h1 h2
  unfold ioRead
  rw [hmode]
  simp only [Run.bind_ok]
  rw [if_neg (by decide)]
  simp only [if_true]
  rw [h1]
  simp only [Run.bind_ok]
  rw [takeBlock_spec h2 _ 0 (by simp)]
  simp only [Run.bind_ok, List.drop_zero]
  refine ⟨_, rfl, ?_, ⟨h.isOpen, h.canRead, ?_⟩⟩
  · simp only [CFile.spec, FSpec.afterLine, FSpec.line, FSpec.mk.injEq, true_and]
    by_cases hm : 10#8 ∈ f.content.drop f.pos
    · simp [hm]
    · simp only [hm, if_false, List.length_drop]; omega
  · dsimp only; split <;> simp

theorem afterLine_content (s : FSpec) : s.afterLine.content = s.content := rfl

theorem linesOf_cons_line (s : List Byte) : linesOf s = s.takeWhile (· != 10#8) ::
    (if 10#8 ∈ s then linesOf (s.drop ((s.takeWhile (· != 10#8)).length + 1)) else []) := by
  induction s with
  | nil => simp [linesOf]
  | cons c s ih =>
    by_cases hc : c = 10#8
    · simp [linesOf, hc]
    · rw [linesOf, if_neg hc, ih]
      simp [hc, Ne.symm hc]

/-- The line number `k`; there are only empty lines after the last. -/
def lineNo (s : List Byte) (k : Nat) : List Byte := (linesOf s)[k]?.getD []

theorem lines_at (s : FSpec) (k : Nat) : lineNo (s.content.drop s.pos) (k + 1) = lineNo (s.afterLine.content.drop s.afterLine.pos) k := by
  unfold lineNo
  rw [linesOf_cons_line (s.content.drop s.pos)]
  simp only [List.getElem?_cons_succ, FSpec.afterLine]
  by_cases hm : 10#8 ∈ s.content.drop s.pos
  · simp only [hm, if_true, List.drop_drop]
    rw [show s.pos + (((s.content.drop s.pos).takeWhile (· != 10#8)).length + 1) = s.pos + s.line.length + 1 from (Nat.add_assoc _ _ _).symm]
  · simp only [hm, if_false]
    rw [List.drop_eq_nil_of_le (by omega)]
    cases k <;> simp [linesOf]

theorem lineNo_zero (s : FSpec) : lineNo (s.content.drop s.pos) 0 = s.line := by
  unfold lineNo; rw [linesOf_cons_line]; rfl

theorem lines_from (n : Nat) (fuel : Nat) : ∀ (f : CFile), f.Readable → f.content.length < fuel →
    ∃ f', f.calls fuel (List.replicate n (.read .undef)) = some (.ok (f', (List.range n).map fun k => .str (lineNo (f.content.drop f.pos) k))) := by
  induction n with
  | zero => intro f _ _; exact ⟨f, rfl⟩
  | succ n ih =>
    intro f h hf
    obtain ⟨f1, h1, h2, h3⟩ := C99_read_line f h .undef (by simp [lineModes]) fuel hf
    have hcont : f1.content = f.content := by have := congrArg FSpec.content h2; exact this
    obtain ⟨f', h4⟩ := ih f1 h3 (by rw [hcont]; exact hf)
    refine ⟨f', ?_⟩
    rw [List.replicate_succ, CFile.calls, CFile.call, h1]
    simp only [Run.bind_ok, h4]
    congr 3
    rw [List.range_succ_eq_map, List.map_cons]
    congr 1
    · rw [← lineNo_zero]; rfl
    · rw [List.map_map]
      refine List.map_congr_left fun k _ => ?_
      have := lines_at f.spec k
      rw [← h2] at this
      simp only [Function.comp, FReply.str.injEq]
      exact this.symm

/-- **C99** reading a whole file line by line: for every content, `n` calls of `read()` on a freshly opened file give the first `n` lines of the text, then empty strings. -/
theorem C99_lines (content : List Byte) (mode : SArg) (m : Bool) (hm : openMode true mode = .ok (.r, m)) (n fuel : Nat) (hf : content.length < fuel) (name : List Byte)
    (fs : List Byte → Option (List Byte)) (hfs : fs (moduleName name) = some content) :
    ∃ f f', ioOpen fs (.str name) mode = .ok (some f) ∧ f.calls fuel (List.replicate n (.read .undef)) = some (.ok (f', (List.range n).map fun k => .str (lineNo content k))) := by
  have ho : ioOpen fs (.str name) mode = .ok (some { content := content, pos := 0, canRead := true, canWrite := m, append := false, isOpen := true, last := .none_ }) := by
    simp only [ioOpen, hm, Out.bind_ok, peekCstr_eq, show name.takeWhile (· != 0#8) = moduleName name from rfl, hfs, fopenFile, Option.map_some]
  obtain ⟨f', h⟩ := lines_from n fuel { content := content, pos := 0, canRead := true, canWrite := m, append := false, isOpen := true, last := .none_ }
    ⟨rfl, rfl, by simp⟩ hf
  exact ⟨_, f', ho, by simpa using h⟩

theorem linesOf_pad (s : List Byte) (k : Nat) : linesOf (s ++ List.replicate k 10#8) = linesOf s ++ List.replicate k [] := by
  induction s with
  | nil =>
    induction k with
    | zero => simp [linesOf]
    | succ k ih =>
      simp only [List.nil_append] at ih ⊢
      rw [List.replicate_succ, linesOf]
      simp [ih, linesOf, List.replicate_succ]
  | cons c s ih =>
    simp only [List.cons_append, linesOf]
    by_cases hc : c = 10#8
    · simp [hc, ih]
    · rw [if_neg hc, if_neg hc, ih]
      cases hl : linesOf s with
      | nil => rw [linesOf_cons_line] at hl; cases hl
      | cons l ls => simp

/-- The end of a file cannot be seen by reading lines: a text and the same text followed by any number of line feeds give the same answers for ever. -/
theorem C99_end_invisible (s : List Byte) (k n : Nat) : lineNo (s ++ List.replicate k 10#8) n = lineNo s n := by
  unfold lineNo
  rw [linesOf_pad, List.getElem?_append]
  split
  · rfl
  · rename_i h
    rw [List.getElem?_eq_none (l := linesOf s) (by omega), List.getElem?_replicate]
    split <;> rfl

/-- The mode argument that asks for everything. -/
def allMode : SArg := .str [0x61#8]

/-- **C100** `read('a')`: every byte of the file (zeros and line feeds included), whatever the position and whatever happened before; the position is then the end. -/
theorem C100_read_all (f : CFile) (ho : f.isOpen = true) (hr : f.canRead = true) (hsz : f.content.length < 2 ^ 63) (fuel : Nat) :
    ∃ f', ioRead fuel f allMode = some (.ok (f', .str f.content)) ∧ f'.spec = { content := f.content, pos := f.content.length } ∧ f'.Readable ∧
      f'.canWrite = f.canWrite ∧ f'.append = f.append := by
  have hmode : readMode allMode = .ok modeAll := by decide +kernel
  unfold ioRead
  rw [hmode]
  simp only [Run.bind_ok, if_true]
  have h1 : f.fseek 0 .fend = .ok (true, { f with pos := f.content.length, last := .none_ }) := by
    unfold CFile.fseek; rw [if_neg (by simp [ho])]; dsimp only; rw [if_neg (by omega)]; simp
  rw [h1]
  simp only [Run.bind_ok, CFile.ftell, ho]
  simp only [Bool.true_eq_false, if_false, Run.bind_ok]
  have h2 : CFile.fseek { f with pos := f.content.length, last := .none_, isOpen := true } 0 .set = .ok (true, { f with pos := 0, last := .none_ }) := by
    unfold CFile.fseek; rw [if_neg (by simp)]; dsimp only; rw [if_neg (by omega)]; simp [ho]
  rw [h2]
  simp only [Run.bind_ok]
  have h3 : ∃ l, l ≠ LastIO.output ∧ CFile.fread { f with pos := 0, last := .none_ } f.content.length = .ok (f.content, { f with pos := f.content.length, last := l }) := by
    unfold CFile.fread
    rw [if_neg (by simp [ho])]
    by_cases h0 : f.content.length = 0
    · rw [if_pos h0]
      have : f.content = [] := List.length_eq_zero_iff.1 h0
      exact ⟨.none_, by simp, by simp [this]⟩
    · rw [if_neg h0]
      exact ⟨.input, by simp, by simp [hr]⟩
  obtain ⟨l, hl, h3⟩ := h3
  rw [h3]
  simp only [Run.bind_ok]
  rw [memcpy_exact (d := 0) (src := f.content) (a := []) (b := List.replicate f.content.length none) (r := []) (by simp [Block.malloc]) rfl (by simp)]
  simp only [Run.bind_ok, List.nil_append, List.append_nil]
  rw [takeBlock_spec (l := f.content) ⟨[], by simp⟩ _ 0 (by simp)]
  exact ⟨_, rfl, rfl, ⟨ho, hr, hl⟩, rfl, rfl⟩

/-- A file that may be written now. -/
structure CFile.Writable (f : CFile) : Prop where
  isOpen : f.isOpen = true
  canWrite : f.canWrite = true
  last : f.canRead = true → f.last ≠ .input

/-- **C100** `write(s)`: the bytes of the string before its first NUL are written at the position (at the end in append mode), and their number is returned. -/
theorem C100_write (f : CFile) (h : f.Writable) (s : List Byte) :
    ∃ f', ioWrite f (.str s) = .ok (f', .int (moduleName s).length) ∧ f'.spec = f.spec.write f.append (moduleName s) ∧ f'.Writable ∧
      f'.canRead = f.canRead ∧ f'.append = f.append := by
  unfold ioWrite
  simp only [peekCstr_eq, show s.takeWhile (· != 0#8) = moduleName s from rfl, Out.bind_ok]
  unfold CFile.fwrite
  rw [if_neg (by simp [h.isOpen])]
  by_cases h0 : (moduleName s).length = 0
  · rw [if_pos h0]
    have : moduleName s = [] := List.length_eq_zero_iff.1 h0
    exact ⟨f, by simp [this], by simp [this, FSpec.write], h, rfl, rfl⟩
  · rw [if_neg h0, if_neg (by simp [h.canWrite]), if_neg (by intro hc; exact h.last hc.1 hc.2)]
    have hne : moduleName s ≠ [] := fun hc => h0 (by simp [hc])
    refine ⟨_, rfl, ?_, ⟨h.isOpen, h.canWrite, by simp⟩, rfl, rfl⟩
    simp only [CFile.spec, FSpec.write, if_neg hne, overwrite]

theorem moduleName_clean {s : List Byte} (h : 0#8 ∉ s) : moduleName s = s := by
  unfold moduleName
  rw [List.takeWhile_eq_self_iff]
  intro c hc
  simp only [bne_iff_ne, ne_eq]
  rintro rfl; exact h hc

theorem overwrite_end (content bytes : List Byte) : overwrite content content.length bytes = content ++ bytes := by
  simp [overwrite]

/-- Writes one after the other, from the end of the file. -/
theorem writes_append (fuel : Nat) : ∀ (ss : List (List Byte)) (f : CFile), f.Writable → f.pos = f.content.length →
    ∃ f', f.calls fuel (ss.map fun s => .write (.str s)) = some (.ok (f', ss.map fun s => .int (moduleName s).length)) ∧
      f'.content = f.content ++ (ss.map moduleName).flatten ∧ f'.pos = f'.content.length ∧ f'.Writable ∧ f'.canRead = f.canRead
  | [], f, h, hp => ⟨f, rfl, by simp, hp, h, rfl⟩
  | s :: ss, f, h, hp => by
    obtain ⟨f1, h1, h2, h3, h4, -⟩ := C100_write f h s
    have hspec : f1.content = f.content ++ moduleName s ∧ f1.pos = f1.content.length := by
      have hw : f.spec.write f.append (moduleName s) = { content := f.content ++ moduleName s, pos := (f.content ++ moduleName s).length } := by
        unfold FSpec.write
        have hat : (if f.append = true then f.spec.content.length else f.spec.pos) = f.content.length := by
          simp only [CFile.spec, hp]; split <;> rfl
        rw [hat]
        by_cases h0 : moduleName s = []
        · simp [h0, CFile.spec, hp]
        · rw [if_neg h0]
          simp only [CFile.spec, overwrite_end]
          simp
      rw [hw] at h2
      have hc := congrArg FSpec.content h2
      have hq := congrArg FSpec.pos h2
      simp only [CFile.spec] at hc hq
      exact ⟨hc, by rw [hq, hc]⟩
    obtain ⟨f', g1, g2, g3, g4, g5⟩ := writes_append fuel ss f1 h3 hspec.2
    refine ⟨f', ?_, by rw [g2, hspec.1]; simp, g3, g4, g5.trans h4⟩
    rw [List.map_cons, CFile.calls, CFile.call, h1]
    simp only [Run.bind_ok, g1, List.map_cons]

theorem calls_append (fuel : Nat) : ∀ (cs ds : List FCall) (f f1 f2 : CFile) (r1 r2 : List FReply), f.calls fuel cs = some (.ok (f1, r1)) →
    f1.calls fuel ds = some (.ok (f2, r2)) → f.calls fuel (cs ++ ds) = some (.ok (f2, r1 ++ r2))
  | [], ds, f, f1, f2, r1, r2, h1, h2 => by
    simp only [CFile.calls, Option.some.injEq, Out.ok.injEq, Prod.mk.injEq] at h1
    obtain ⟨rfl, rfl⟩ := h1
    simpa using h2
  | c :: cs, ds, f, f1, f2, r1, r2, h1, h2 => by
    rw [CFile.calls] at h1
    obtain ⟨a, ha, h1⟩ := Run.bind_eq_ok h1
    obtain ⟨b, hb, h1⟩ := Run.bind_eq_ok h1
    simp only [Option.some.injEq, Out.ok.injEq, Prod.mk.injEq] at h1
    obtain ⟨rfl, rfl⟩ := h1
    have := calls_append fuel cs ds a.1 b.1 f2 b.2 r2 hb h2
    rw [List.cons_append, CFile.calls, ha]
    simp only [Run.bind_ok, this, List.cons_append]

/-- **C100** round trip: whatever strings are written to a file opened with `w+`, reading everything gives them back, one
after the other — each up to its first NUL byte. -/
theorem C100_round_trip (fs : List Byte → Option (List Byte)) (name : List Byte) (mode : SArg) (hm : openMode true mode = .ok (.w, true)) (ss : List (List Byte))
    (hsz : ((ss.map moduleName).flatten).length < 2 ^ 63) (fuel : Nat) :
    ∃ f f', ioOpen fs (.str name) mode = .ok (some f) ∧ f.calls fuel ((ss.map fun s => .write (.str s)) ++ [.read allMode]) =
      some (.ok (f', (ss.map fun s => .int (moduleName s).length) ++ [.str ((ss.map moduleName).flatten)])) := by
  have ho : ioOpen fs (.str name) mode = .ok (some { content := [], pos := 0, canRead := true, canWrite := true, append := false, isOpen := true, last := .none_ }) := by
    simp only [ioOpen, hm, Out.bind_ok, peekCstr_eq, fopenFile]
  obtain ⟨f1, h1, h2, h3, h4, h5⟩ := writes_append fuel ss { content := [], pos := 0, canRead := true, canWrite := true, append := false, isOpen := true, last := .none_ }
    ⟨rfl, rfl, by simp⟩ rfl
  simp only [List.nil_append] at h2
  obtain ⟨f2, g1, -⟩ := C100_read_all f1 h4.isOpen (h5.trans rfl) (by rw [h2]; exact hsz) fuel
  refine ⟨_, f2, ho, ?_⟩
  refine calls_append fuel _ _ _ _ _ _ _ h1 ?_
  simp only [CFile.calls, CFile.call, g1, Run.bind_ok, h2]

/-- Strings without NUL bytes come back unchanged. -/
theorem C100_round_trip_clean (ss : List (List Byte)) (h : ∀ s ∈ ss, 0#8 ∉ s) : (ss.map moduleName).flatten = ss.flatten := by
  congr 1
  conv_rhs => rw [← List.map_id ss]
  exact List.map_congr_left fun s hs => moduleName_clean (h s hs)

/-- **C100** `seek(whence, offset)`: from the beginning, the position or the end; the answer is whether the target is a position, and on failure nothing moves. -/
theorem C100_seek (f : CFile) (ho : f.isOpen = true) (warg : SArg) (w : Whence) (hw : seekWhence warg = .ok w) (offset : BitVec 64) :
    match f.spec.seek w offset.toInt with
    | some s => ∃ f', ioSeek f warg (.int offset) = .ok (f', .bool true) ∧ f'.spec = s ∧ f'.last = .none_
    | none => ioSeek f warg (.int offset) = .ok (f, .bool false) := by
  obtain ⟨base, hk, hs⟩ : ∃ base : Int, f.fseek offset.toInt w = (if offset.toInt + base < 0 ∨ 2 ^ 63 ≤ offset.toInt + base then .ok (false, f) else
        .ok (true, { f with pos := (offset.toInt + base).toNat, last := .none_ })) ∧
      f.spec.seek w offset.toInt = (if 0 ≤ base + offset.toInt ∧ base + offset.toInt < 2 ^ 63 then some { f.spec with pos := (base + offset.toInt).toNat } else none) := by
    unfold CFile.fseek
    rw [if_neg (by simp [ho])]
    cases w with
    | set => exact ⟨0, rfl, rfl⟩
    | cur => exact ⟨f.pos, rfl, rfl⟩
    | fend => exact ⟨f.content.length, rfl, rfl⟩
  rw [hs]
  simp only [ioSeek, hw, Out.bind_ok, hk]
  by_cases hc : 0 ≤ base + offset.toInt ∧ base + offset.toInt < 2 ^ 63
  · rw [if_pos hc, if_neg (by omega)]
    exact ⟨_, rfl, by simp [CFile.spec, Int.add_comm], rfl⟩
  · rw [if_neg hc, if_pos (by omega)]; rfl

/-- The origins a program can name. -/
theorem C100_whence (b : List Byte) :
    seekWhence .undef = .ok .set ∧ seekWhence .other = .typeError ∧
    seekWhence (.str b) = (if moduleName b = asciiBytes "set" then .ok .set else if moduleName b = asciiBytes "cur" then .ok .cur
      else if moduleName b = asciiBytes "end" then .ok .fend else .valueError) := by
  refine ⟨rfl, rfl, ?_⟩
  simp only [seekWhence, peekCstr_eq, Out.bind_ok]
  rfl

/-- The modes of `io.open`. -/
def openModes : List (List Byte × OpenMode × Bool) :=
  [(asciiBytes "r", .r, false), (asciiBytes "w", .w, false), (asciiBytes "a", .a, false), (asciiBytes "r+", .r, true), (asciiBytes "w+", .w, true), (asciiBytes "a+", .a, true)]

/-- **C101** `io.open` accepts exactly the six modes `r w a r+ w+ a+` (and no mode, which is `r`); every other string is a value error and every other value a type
error.  A mode is read up to its first NUL byte. -/
theorem C101_open_modes (arg : SArg) :
    openMode true arg = (match arg with
      | .undef => .ok (.r, false)
      | .other => .typeError
      | .str b => match openModes.lookup (moduleName b) with
        | some m => .ok m
        | none => .valueError) := by
  cases arg with
  | undef => decide +kernel
  | other => rfl
  | str b =>
    simp only [openMode, peekCstr_eq, show b.takeWhile (· != 0#8) = moduleName b from rfl, Out.bind_ok]
    generalize moduleName b = m
    match m with
    | [] => rfl
    | [c] =>
      by_cases h1 : c = 0x72#8
      · subst h1; decide +kernel
      by_cases h2 : c = 0x77#8
      · subst h2; decide +kernel
      by_cases h3 : c = 0x61#8
      · subst h3; decide +kernel
      have : openModes.lookup [c] = none := by
        simp [openModes, asciiBytes, List.lookup, beq_eq_false_iff_ne.2 h1, beq_eq_false_iff_ne.2 h2, beq_eq_false_iff_ne.2 h3]
      rw [this]
      simp [h1, h2, h3]
    | [c, d] =>
      by_cases hd : d = 0x2B#8
      · subst hd
        by_cases h1 : c = 0x72#8
        · subst h1; decide +kernel
        by_cases h2 : c = 0x77#8
        · subst h2; decide +kernel
        by_cases h3 : c = 0x61#8
        · subst h3; decide +kernel
        have : openModes.lookup [c, 0x2B#8] = none := by
          simp [openModes, asciiBytes, List.lookup, beq_eq_false_iff_ne.2 h1, beq_eq_false_iff_ne.2 h2, beq_eq_false_iff_ne.2 h3]
        rw [this]
        simp [h1, h2, h3]
      · have : openModes.lookup [c, d] = none := by
          simp [openModes, asciiBytes, List.lookup, beq_eq_false_iff_ne.2 hd]
        rw [this]
        simp [hd, Out.bind]
    | c :: d :: e :: m =>
      have : openModes.lookup (c :: d :: e :: m) = none := by
        simp [openModes, asciiBytes, List.lookup]
      rw [this]
      simp [Out.bind]

theorem call_open {fuel : Nat} {f f' : CFile} {c : FCall} {r : FReply} (h : f.call fuel c = some (.ok (f', r))) : f.isOpen = true := by
  cases ho : f.isOpen with
  | true => rfl
  | false =>
    exfalso
    cases c with
    | read m =>
      simp only [CFile.call, ioRead] at h
      obtain ⟨a, ha, h⟩ := Run.bind_eq_ok h
      split at h
      · simp [CFile.fseek, ho, Run.bind] at h
      split at h
      · obtain ⟨b, hb, h⟩ := Run.bind_eq_ok h
        cases fuel with
        | zero => simp [readLineLoop] at hb
        | succ k => simp [readLineLoop, CFile.fgetc, ho, Run.bind] at hb
      · simp at h
    | write a =>
      simp only [CFile.call, ioWrite, Option.some.injEq] at h
      split at h
      · simp [peekCstr_eq, CFile.fwrite, ho, Out.bind] at h
      · cases h
    | seek w o =>
      simp only [CFile.call, ioSeek, Option.some.injEq] at h
      split at h
      · cases h
      all_goals
        cases hw : seekWhence w with
        | ok x => rw [hw] at h; simp [CFile.fseek, ho, Out.bind] at h
        | valueError => rw [hw] at h; simp [Out.bind] at h
        | typeError => rw [hw] at h; simp [Out.bind] at h
        | ub => rw [hw] at h; simp [Out.bind] at h
    | flush => simp [CFile.call, ioFlush, CFile.fflush, ho, Out.bind] at h
    | close => simp [CFile.call, ioClose, CFile.fclose, ho, Out.bind] at h

theorem close_closes {fuel : Nat} {f f' : CFile} {r : FReply} (h : f.call fuel .close = some (.ok (f', r))) : f'.isOpen = false := by
  have ho := call_open h
  simp [CFile.call, ioClose, CFile.fclose, ho, Out.bind] at h
  rw [← h.1]

/-- A stream that is closed stays closed, and no further method call is defined. -/
theorem calls_closed {fuel : Nat} {f f' : CFile} {cs : List FCall} {rs : List FReply} (hc : f.isOpen = false) (h : f.calls fuel cs = some (.ok (f', rs))) :
    cs = [] ∧ f' = f := by
  cases cs with
  | nil => simp [CFile.calls] at h; exact ⟨rfl, h.1.symm⟩
  | cons c cs =>
    rw [CFile.calls] at h
    obtain ⟨a, ha, -⟩ := Run.bind_eq_ok h
    have := call_open ha
    rw [hc] at this; cases this

/-- **C101** is false for `close`: once a program has closed a file explicitly, dropping the last reference to it closes it again, which is undefined behaviour.  For
every file and every sequence of method calls that contains `close`. -/
theorem C101_close_counterexample (fuel : Nat) : ∀ (cs : List FCall) (f f' : CFile) (rs : List FReply), f.calls fuel cs = some (.ok (f', rs)) → .close ∈ cs →
    ioRelease f' = .ub
  | [], _, _, _, _, hm => by simp at hm
  | c :: cs, f, f', rs, h, hm => by
    rw [CFile.calls] at h
    obtain ⟨a, ha, h⟩ := Run.bind_eq_ok h
    obtain ⟨b, hb, h⟩ := Run.bind_eq_ok h
    simp only [Option.some.injEq, Out.ok.injEq, Prod.mk.injEq] at h
    obtain ⟨rfl, rfl⟩ := h
    rcases List.mem_cons.1 hm with rfl | hm
    · have hcl := close_closes ha
      obtain ⟨rfl, he⟩ := calls_closed hcl hb
      rw [he]
      simp [ioRelease, CFile.fclose, hcl, Out.bind]
    · exact C101_close_counterexample fuel cs a.1 b.1 b.2 hb hm

theorem call_keeps_open {fuel : Nat} {f f' : CFile} {c : FCall} {r : FReply} (h : f.call fuel c = some (.ok (f', r))) (hc : c ≠ .close) : f'.isOpen = true := by
  have ho := call_open h
  have hseek : ∀ (g g' : CFile) (o : Int) (w : Whence) (b : Bool), g.isOpen = true → g.fseek o w = .ok (b, g') → g'.isOpen = true := by
    intro g g' o w b hg hs
    unfold CFile.fseek at hs
    rw [if_neg (by simp [hg])] at hs
    have key : ∀ (P : Prop) [Decidable P] (x : CFile), x.isOpen = true → (if P then Out.ok (false, g) else Out.ok (true, x)) = .ok (b, g') → g'.isOpen = true := by
      intro P _ x hx h
      split at h <;> (simp only [Out.ok.injEq, Prod.mk.injEq] at h; rw [← h.2]; assumption)
    exact key _ _ (by exact hg) hs
  cases c with
  | read m =>
    simp only [CFile.call, ioRead] at h
    obtain ⟨a, ha, h⟩ := Run.bind_eq_ok h
    split at h
    · obtain ⟨b, hb, h⟩ := Run.bind_eq_ok h
      obtain ⟨c, hc, h⟩ := Run.bind_eq_ok h
      obtain ⟨d, hd, h⟩ := Run.bind_eq_ok h
      obtain ⟨e, he, h⟩ := Run.bind_eq_ok h
      obtain ⟨g, hg, h⟩ := Run.bind_eq_ok h
      obtain ⟨i, hi, h⟩ := Run.bind_eq_ok h
      simp only [Option.some.injEq, Out.ok.injEq, Prod.mk.injEq] at h hb hd he
      have hb' := hseek _ b.2 _ _ b.1 ho (by rw [hb])
      have hd' := hseek _ d.2 _ _ d.1 hb' (by rw [hd])
      rw [← h.1]
      unfold CFile.fread at he
      rw [if_neg (by simp [hd'])] at he
      split at he
      · simp only [Out.ok.injEq] at he; rw [← he]; exact hd'
      split at he
      · simp only [Out.ok.injEq] at he; rw [← he]; exact hd'
      split at he
      · cases he
      · simp only [Out.ok.injEq] at he; rw [← he]; exact hd'
    split at h
    · obtain ⟨b, hb, h⟩ := Run.bind_eq_ok h
      obtain ⟨c, hc, h⟩ := Run.bind_eq_ok h
      simp only [Option.some.injEq, Out.ok.injEq, Prod.mk.injEq] at h
      rw [← h.1]
      have key : ∀ (k : Nat) (g : CFile) (m : Block Byte) (sz i : Nat) (x : CFile × Block Byte × Nat), g.isOpen = true →
          readLineLoop k g m sz i = some (.ok x) → x.1.isOpen = true := by
        intro k
        induction k with
        | zero => intro g m sz i x _ hx; simp [readLineLoop] at hx
        | succ k ih =>
          intro g m sz i x hg hx
          rw [readLineLoop] at hx
          obtain ⟨y, hy, hx⟩ := Run.bind_eq_ok hx
          have hy' : y.2.isOpen = true := by
            simp only [Option.some.injEq] at hy
            unfold CFile.fgetc at hy
            rw [if_neg (by simp [hg])] at hy
            split at hy
            · simp only [Out.ok.injEq] at hy; rw [← hy]; exact hg
            split at hy
            · cases hy
            split at hy <;> (simp only [Out.ok.injEq] at hy; rw [← hy]; exact hg)
          split at hx
          · simp only [Option.some.injEq, Out.ok.injEq] at hx; rw [← hx]; exact hy'
          split at hx
          · simp only [Option.some.injEq, Out.ok.injEq] at hx; rw [← hx]; exact hy'
          · obtain ⟨z, -, hx⟩ := Run.bind_eq_ok hx
            exact ih _ _ _ _ _ hy' hx
      exact key _ _ _ _ _ _ ho hb
    · simp at h
  | write a =>
    simp only [CFile.call, ioWrite, Option.some.injEq] at h
    split at h
    · simp only [peekCstr_eq, Out.bind_ok] at h
      unfold CFile.fwrite at h
      rw [if_neg (by simp [ho])] at h
      split at h
      · simp only [Out.bind_ok, Out.ok.injEq, Prod.mk.injEq] at h; rw [← h.1]; exact ho
      split at h
      · simp only [Out.bind_ok, Out.ok.injEq, Prod.mk.injEq] at h; rw [← h.1]; exact ho
      split at h
      · simp [Out.bind] at h
      · simp only [Out.bind_ok, Out.ok.injEq, Prod.mk.injEq] at h; rw [← h.1]; exact ho
    · cases h
  | seek w o =>
    simp only [CFile.call, ioSeek, Option.some.injEq] at h
    split at h
    · cases h
    all_goals
      cases hw : seekWhence w with
      | ok x =>
        rw [hw] at h
        simp only [Out.bind_ok] at h
        rename_i i
        first
          | (cases hs : f.fseek 0 x with
            | ok y =>
              rw [hs] at h
              simp only [Out.bind_ok, Out.ok.injEq, Prod.mk.injEq] at h
              rw [← h.1]; exact hseek _ _ _ _ y.1 ho hs
            | _ => rw [hs] at h; simp [Out.bind] at h)
          | (cases hs : f.fseek i.toInt x with
            | ok y =>
              rw [hs] at h
              simp only [Out.bind_ok, Out.ok.injEq, Prod.mk.injEq] at h
              rw [← h.1]; exact hseek _ _ _ _ y.1 ho hs
            | _ => rw [hs] at h; simp [Out.bind] at h)
      | _ => rw [hw] at h; simp [Out.bind] at h
  | flush =>
    simp [CFile.call, ioFlush, CFile.fflush, ho, Out.bind] at h
    rw [← h.1]
  | close => exact absurd rfl hc

/-- What holds: a file that is never closed explicitly is closed once, when the last reference to it is dropped. -/
theorem C101_release_partial (fuel : Nat) : ∀ (cs : List FCall) (f f' : CFile) (rs : List FReply), f.isOpen = true → f.calls fuel cs = some (.ok (f', rs)) →
    .close ∉ cs → ∃ f'', ioRelease f' = .ok f'' ∧ f''.isOpen = false ∧ f''.content = f'.content
  | [], f, f', rs, ho, h, _ => by
    simp only [CFile.calls, Option.some.injEq, Out.ok.injEq, Prod.mk.injEq] at h
    rw [← h.1]
    exact ⟨{ f with isOpen := false }, by simp [ioRelease, CFile.fclose, ho, Out.bind], rfl, rfl⟩
  | c :: cs, f, f', rs, ho, h, hm => by
    rw [CFile.calls] at h
    obtain ⟨a, ha, h⟩ := Run.bind_eq_ok h
    obtain ⟨b, hb, h⟩ := Run.bind_eq_ok h
    simp only [Option.some.injEq, Out.ok.injEq, Prod.mk.injEq] at h
    obtain ⟨rfl, rfl⟩ := h
    simp only [List.mem_cons, not_or] at hm
    exact C101_release_partial fuel cs a.1 b.1 b.2 (call_keeps_open ha (Ne.symm hm.1)) hb hm.2

/-- Reading everything from a file that was opened only for writing is undefined behaviour: the buffer that is returned was never written. -/
theorem C100_write_only_counterexample (f : CFile) (ho : f.isOpen = true) (hr : f.canRead = false) (hne : f.content ≠ []) (hsz : f.content.length < 2 ^ 63)
    (fuel : Nat) : ioRead fuel f allMode = some .ub := by
  have hmode : readMode allMode = .ok modeAll := by decide +kernel
  unfold ioRead
  rw [hmode]
  simp only [Run.bind_ok, if_true]
  have h1 : f.fseek 0 .fend = .ok (true, { f with pos := f.content.length, last := .none_ }) := by
    unfold CFile.fseek; rw [if_neg (by simp [ho])]; dsimp only; rw [if_neg (by omega)]; simp
  rw [h1]
  simp only [Run.bind_ok, CFile.ftell, ho]
  simp only [Bool.true_eq_false, if_false, Run.bind_ok]
  have h2 : CFile.fseek { f with pos := f.content.length, last := .none_, isOpen := true } 0 .set = .ok (true, { f with pos := 0, last := .none_ }) := by
    unfold CFile.fseek; rw [if_neg (by simp)]; dsimp only; rw [if_neg (by omega)]; simp [ho]
  rw [h2]
  simp only [Run.bind_ok]
  have h0 : f.content.length ≠ 0 := fun h => hne (List.length_eq_zero_iff.1 h)
  have h3 : CFile.fread { f with pos := 0, last := .none_ } f.content.length = .ok ([], { f with pos := 0, last := .none_ }) := by
    unfold CFile.fread
    rw [if_neg (by simp [ho]), if_neg h0, if_pos hr]
  rw [h3]
  simp only [Run.bind_ok]
  obtain ⟨k, hk⟩ : ∃ k, f.content.length = k + 1 := ⟨f.content.length - 1, by omega⟩
  rw [hk]
  simp [Block.memcpy, takeBlock, Block.ld, Block.malloc, Run.bind, Out.bind, List.replicate_succ]

/-- Reading a line straight after a write, on a file opened for both, is undefined behaviour (C11 7.21.5.3); `flush` or `seek` in between makes it defined. -/
theorem C100_write_then_read_counterexample (f : CFile) (h : f.Writable) (hr : f.canRead = true) (s : List Byte) (hs : moduleName s ≠ []) (fuel : Nat) :
    f.calls (fuel + 1) [.write (.str s), .read .undef] = some .ub := by
  have h0 : (moduleName s).length ≠ 0 := fun hc => hs (List.length_eq_zero_iff.1 hc)
  have hw : ∃ f', ioWrite f (.str s) = .ok (f', .int (moduleName s).length) ∧ f'.isOpen = true ∧ f'.canRead = true ∧ f'.last = .output := by
    unfold ioWrite
    simp only [peekCstr_eq, show s.takeWhile (· != 0#8) = moduleName s from rfl, Out.bind_ok]
    unfold CFile.fwrite
    rw [if_neg (by simp [h.isOpen]), if_neg h0, if_neg (by simp [h.canWrite]), if_neg (by intro hc; exact h.last hc.1 hc.2)]
    exact ⟨_, rfl, h.isOpen, hr, rfl⟩
  obtain ⟨f', h1, h2, h3, h4⟩ := hw
  have hmode : readMode .undef = .ok modeLine := rfl
  simp only [CFile.calls, CFile.call, h1, Run.bind_ok, ioRead, hmode]
  rw [if_neg (by decide)]
  simp [readLineLoop, CFile.fgetc, h2, h3, h4, Run.bind]

/-- A file with three lines, the last one without a line feed. -/
def demoFile : List Byte := asciiBytes "one\ntwenty-two letters here\n\nend"

example : (match ioOpen (fun _ => some demoFile) (.str (asciiBytes "f")) .undef with
    | .ok (some f) => (f.calls 100 (List.replicate 6 (.read .undef))).map fun r => match r with | .ok (_, rs) => rs | _ => []
    | _ => none) = some [.str (asciiBytes "one"), .str (asciiBytes "twenty-two letters here"), .str [], .str (asciiBytes "end"), .str [], .str []] := by decide +kernel

example : (match ioOpen (fun _ => none) (.str (asciiBytes "f")) (.str (asciiBytes "w+")) with
    | .ok (some f) => (f.calls 100 [.write (.str (asciiBytes "abc")), .write (.str (asciiBytes "d" ++ [0#8] ++ asciiBytes "e")), .seek (.str (asciiBytes "set")) (.int 1),
        .read .undef, .seek (.str (asciiBytes "cur")) (.int (-9)), .read allMode, .close]).map fun r => match r with | .ok (f, rs) => (ioRelease f, rs) | _ => (.ub, [])
    | _ => none) = some (.ub, [.int 3, .int 1, .bool true, .str (asciiBytes "bcd"), .bool false, .str (asciiBytes "abcd"), .bool true]) := by decide +kernel

example : openMode true (.str (asciiBytes "w+")) = .ok (.w, true) ∧ openMode true (.str (asciiBytes "rb")) = .valueError ∧ openMode true (.str (asciiBytes "r")) = .ok (.r, false) := by
  decide +kernel

/-- the theorems on these files -/
example := C99_lines demoFile .undef false (by decide +kernel) 4 100 (by decide +kernel) (asciiBytes "f") (fun _ => some demoFile) rfl
example := C100_round_trip (fun _ => none) (asciiBytes "f") (.str (asciiBytes "w+")) (by decide +kernel) [asciiBytes "ab", [99#8, 0#8, 100#8]] (by decide +kernel) 100
example := C100_round_trip_clean [asciiBytes "ab", asciiBytes "c"] (by decide +kernel)

end Yasl
