import Verif.Model.VM
import Verif.Props.ByteBuffer
set_option autoImplicit false
/-! # Running pieces of bytecode -/
namespace Yasl

/-- The bytes `c` are at position `p` of the code. -/
def At (code : List Byte) (p : Nat) (c : List Byte) : Prop := c <+: code.drop p

theorem At.left {code : List Byte} {p : Nat} {a b : List Byte} (h : At code p (a ++ b)) : At code p a :=
  (List.prefix_append a b).trans h

theorem At.right {code : List Byte} {p : Nat} {a b : List Byte} (h : At code p (a ++ b)) : At code (p + a.length) b := by
  obtain ⟨t, ht⟩ := h
  refine ⟨t, ?_⟩
  rw [← List.drop_drop, ← ht]; simp

theorem At.cast {code : List Byte} {p q : Nat} {a : List Byte} (h : At code p a) (e : p = q) : At code q a := e ▸ h

theorem At.head {code : List Byte} {p : Nat} {b : Byte} {c : List Byte} (h : At code p (b :: c)) : code[p]? = some b := by
  obtain ⟨t, ht⟩ := h
  have := congrArg (·[0]?) ht
  simpa using this.symm

theorem At.tail {code : List Byte} {p : Nat} {b : Byte} {c : List Byte} (h : At code p (b :: c)) : At code (p + 1) c :=
  At.right (a := [b]) h

theorem At.int {code : List Byte} {p : Nat} {v : BitVec 64} {c : List Byte} (h : At code p (bytes8 v ++ c)) :
    readInt8 (code.drop p) = some v := by
  obtain ⟨t, ht⟩ := h
  rw [← ht, List.append_assoc]
  exact C19_int_roundtrip v _

theorem At.int' {code : List Byte} {p : Nat} {v : BitVec 64} (h : At code p (bytes8 v)) :
    readInt8 (code.drop p) = some v := At.int (c := []) (by simpa using h)

theorem At.length_le {code : List Byte} {p : Nat} {c : List Byte} (h : At code p c) (hp : p ≤ code.length) : p + c.length ≤ code.length := by
  have := List.IsPrefix.length_le h; simp at this; omega

theorem At.length_le' {code : List Byte} {p : Nat} {c : List Byte} (h : At code p c) : c.length ≤ code.length := by
  have := List.IsPrefix.length_le h; simp at this; omega

@[simp] theorem bytes8_length (v : BitVec 64) : (bytes8 v).length = 8 := rfl

section
variable {W : Type} {F : FloatOps} {P : Prims W} {code : List Byte} {K : List Val}

theorem VM.run_add (a b : Nat) (m : VM W) : VM.run F P code K (a + b) m =
    match VM.run F P code K a m with
    | .next m' => VM.run F P code K b m'
    | .stop m' e => .stop m' e := by
  induction a generalizing m with
  | zero => simp [VM.run]
  | succ a ih =>
    rw [Nat.succ_add]
    simp only [VM.run]
    cases VM.step F P code K m with
    | next m' => exact ih m'
    | stop m' e => rfl

theorem VM.run_one (m : VM W) : VM.run F P code K 1 m = m.step F P code K := by
  simp only [VM.run]
  cases VM.step F P code K m <;> rfl

variable (F P code K)

/-- From `m` the machine does what the result `r` says: it reaches the state `nx`, or stops with the error, without a change to the
output and the globals. -/
def Sim {α : Type} (m : VM W) (r : PRes W α) (nx : W → α → VM W) : Prop :=
  match r with
  | (w, .ok a) => ∃ k, VM.run F P code K k m = .next (nx w a)
  | (w, .error e) => ∃ k m', VM.run F P code K k m = .stop m' e ∧ m'.world = w ∧ m'.out = m.out ∧ m'.globals = m.globals

variable {F P code K}

theorem Sim.bind {α β : Type} {m : VM W} {r : PRes W α} {nx : W → α → VM W} {f : W → α → PRes W β} {nx' : W → β → VM W}
    (h : Sim F P code K m r nx) (ho : ∀ w a, (nx w a).out = m.out) (hg : ∀ w a, (nx w a).globals = m.globals)
    (h' : ∀ w a, r = (w, .ok a) → Sim F P code K (nx w a) (f w a) nx') : Sim F P code K m (r.bind f) nx' := by
  obtain ⟨w, r⟩ := r
  cases r with
  | error e => exact h
  | ok a =>
    obtain ⟨k, hk⟩ := h
    have h2 := h' w a rfl
    simp only [PRes.bind]
    unfold Sim at h2 ⊢
    generalize f w a = r2 at h2
    obtain ⟨w2, r2⟩ := r2
    cases r2 with
    | ok b =>
      obtain ⟨k2, hk2⟩ := h2
      exact ⟨k + k2, by rw [VM.run_add, hk]; exact hk2⟩
    | error e =>
      obtain ⟨k2, m', hk2, h3, h4, h5⟩ := h2
      exact ⟨k + k2, m', by rw [VM.run_add, hk]; exact hk2, h3, by rw [h4, ho], by rw [h5, hg]⟩

theorem Sim.step {α : Type} {m m' : VM W} {r : PRes W α} {nx : W → α → VM W} (hs : m.step F P code K = .next m')
    (ho : m'.out = m.out) (hg : m'.globals = m.globals) (h : Sim F P code K m' r nx) : Sim F P code K m r nx := by
  unfold Sim at h ⊢
  obtain ⟨w, r⟩ := r
  cases r with
  | ok b =>
    obtain ⟨k2, hk2⟩ := h
    exact ⟨1 + k2, by rw [VM.run_add, VM.run_one, hs]; exact hk2⟩
  | error e =>
    obtain ⟨k2, m', hk2, h3, h4, h5⟩ := h
    exact ⟨1 + k2, m', by rw [VM.run_add, VM.run_one, hs]; exact hk2, h3, by rw [h4, ho], by rw [h5, hg]⟩

theorem Sim.done {α : Type} {m : VM W} {w : W} {a : α} {nx : W → α → VM W} (h : m = nx w a) : Sim F P code K m (w, .ok a) nx :=
  ⟨0, by simp [VM.run, h]⟩

theorem Sim.pushRes {m m1 : VM W} {r : PRes W Val} {nx : W → Val → VM W} (hs : m.step F P code K = VM.pushRes m1 r)
    (ho : m1.out = m.out) (hg : m1.globals = m.globals) (hroom : m1.stack.length < stackSize)
    (h : ∀ w v, nx w v = { m1 with stack := v :: m1.stack, world := w }) : Sim F P code K m r nx := by
  obtain ⟨w, r⟩ := r
  cases r with
  | ok v =>
    refine ⟨1, ?_⟩
    rw [VM.run_one, hs, h]
    simp only [VM.pushRes, VM.push]
    rw [if_neg (by omega)]
  | error e =>
    refine ⟨1, { m1 with world := w }, ?_, rfl, ho, hg⟩
    rw [VM.run_one, hs]; rfl

variable {p : Nat} {st : List Val} {fp : Int} {loops : List (Nat × Val)} {g : Name → Option Val} {w : W} {out : List Byte}
  {c : List Byte}

theorem step_fetch {b : Byte} (h : At code p (b :: c)) :
    VM.step F P code K ⟨p, st, fp, loops, g, w, out⟩ = VM.dispatch F P code K b.toNat ⟨p + 1, st, fp, loops, g, w, out⟩ := by
  simp only [VM.step, VM.readByte, h.head]

theorem dispatch_br (m : VM W) : VM.dispatch F P code K Opc.BR_8.byte.toNat m = VM.readInt code m fun c m => m.jumpBy c := rfl
theorem dispatch_lit (m : VM W) : VM.dispatch F P code K Opc.LIT.byte.toNat m = VM.readByte code m fun i m => match K[i.toNat]? with
    | some v => m.push v
    | none => .stop m .ub := rfl
theorem dispatch_lit8 (m : VM W) : VM.dispatch F P code K Opc.LIT8.byte.toNat m = VM.readInt code m fun i m => match K[i.toNat]? with
    | some v => m.push v
    | none => .stop m .ub := rfl
theorem dispatch_gload (m : VM W) : VM.dispatch F P code K Opc.GLOAD_8.byte.toNat m = VM.readInt code m fun c m => match K[c.toNat]? with
    | some (.str x) => m.push ((m.globals x).getD .end_)
    | _ => .stop m .ub := rfl
theorem dispatch_gstore (m : VM W) : VM.dispatch F P code K Opc.GSTORE_8.byte.toNat m = VM.readInt code m fun c m => match K[c.toNat]?, m.stack with
    | some (.str x), v :: st => .next { m with stack := st, globals := fun y => if y = x then some v else m.globals y }
    | _, _ => .stop m .ub := rfl
theorem dispatch_lload (m : VM W) : VM.dispatch F P code K Opc.LLOAD.byte.toNat m = VM.readByte code m fun off m =>
    match m.slot (m.fp + off.toInt + 1) with
    | some a => m.push a
    | none => m.badSlot (m.fp + off.toInt + 1) := rfl
theorem dispatch_lstore (m : VM W) : VM.dispatch F P code K Opc.LSTORE.byte.toNat m = VM.readByte code m fun off m =>
    match m.slot (m.fp + off.toInt + 1), m.stack with
    | some _, v :: _ => .next { m with stack := (m.stack.set (m.depth (m.fp + off.toInt + 1)) v).tail }
    | _, _ => m.badSlot (m.fp + off.toInt + 1) := rfl
theorem dispatch_moveup (m : VM W) : VM.dispatch F P code K Opc.MOVEUP_FP.byte.toNat m = VM.readByte code m fun off m =>
    match m.slot (m.fp + off.toInt + 1) with
    | some a => .next { m with stack := a :: m.stack.eraseIdx (m.depth (m.fp + off.toInt + 1)) }
    | none => m.badSlot (m.fp + off.toInt + 1) := rfl
theorem dispatch_echo (m : VM W) : VM.dispatch F P code K Opc.ECHO.byte.toNat m = VM.readByte code m fun _ m => match m.stack with
    | v :: st => match P.tostr m.world v with
      | (w, .ok t) => .next { m with stack := st, world := w, out := m.out ++ echoBytes t }
      | (w, .error e) => .stop { m with world := w } e
    | [] => .stop m .ub := rfl

theorem step_push (o : Opc) (v : Val)
    (ho : (o = .NCONST ∧ v = .undef) ∨ (o = .BCONST_F ∧ v = .bool false) ∨ (o = .BCONST_T ∧ v = .bool true) ∨ (o = .END ∧ v = .end_))
    (h : At code p (o.byte :: c)) (hr : st.length < stackSize) :
    VM.step F P code K ⟨p, st, fp, loops, g, w, out⟩ = .next ⟨p + 1, v :: st, fp, loops, g, w, out⟩ := by
  rcases ho with ⟨rfl, rfl⟩ | ⟨rfl, rfl⟩ | ⟨rfl, rfl⟩ | ⟨rfl, rfl⟩ <;>
  · rw [step_fetch h]
    show VM.push _ _ = _
    rw [VM.push, if_neg (by simpa using hr)]

theorem step_bin (o : BinOp) (a b : Val) (h : At code p (o.opc.byte :: c)) :
    VM.step F P code K ⟨p, b :: a :: st, fp, loops, g, w, out⟩ =
      VM.pushRes ⟨p + 1, st, fp, loops, g, w, out⟩ (applyBin F P w o a b) := by
  cases o <;> (rw [step_fetch h]; rfl)

theorem step_un (o : UnOp) (a : Val) (h : At code p (o.opc.byte :: c)) :
    VM.step F P code K ⟨p, a :: st, fp, loops, g, w, out⟩ =
      VM.pushRes ⟨p + 1, st, fp, loops, g, w, out⟩ (applyUn P w o a) := by
  cases o <;> (rw [step_fetch h]; rfl)

theorem step_pop (v : Val) (h : At code p (Opc.POP.byte :: c)) :
    VM.step F P code K ⟨p, v :: st, fp, loops, g, w, out⟩ = .next ⟨p + 1, st, fp, loops, g, w, out⟩ := by
  rw [step_fetch h]; rfl

theorem step_dup (v : Val) (h : At code p (Opc.DUP.byte :: c)) (hr : st.length + 1 < stackSize) :
    VM.step F P code K ⟨p, v :: st, fp, loops, g, w, out⟩ = .next ⟨p + 1, v :: v :: st, fp, loops, g, w, out⟩ := by
  rw [step_fetch h]
  show VM.push _ _ = _
  rw [VM.push, if_neg (by simp; omega)]

/-- Forward jump over `n` bytes. -/
theorem jumpBy_forward {m : VM W} {n : Nat} (hn : n < 2 ^ 63) :
    VM.jumpBy m (BitVec.ofInt 64 n) = .next { m with pc := m.pc + n } := by
  have : (BitVec.ofInt 64 (n : Int)).toInt = n := by rw [BitVec.toInt_ofInt]; exact Int.bmod_eq_of_le (by omega) (by omega)
  simp only [VM.jumpBy, this]
  rw [if_neg (by omega)]
  congr

/-- Jump to position `q`. -/
theorem jumpBy_to {m : VM W} {d : Int} {q : Nat} (hd : (m.pc : Int) + d = q) (h1 : -2 ^ 63 ≤ d) (h2 : d < 2 ^ 63) :
    VM.jumpBy m (BitVec.ofInt 64 d) = .next { m with pc := q } := by
  have : (BitVec.ofInt 64 d).toInt = d := by rw [BitVec.toInt_ofInt]; exact Int.bmod_eq_of_le (by omega) (by omega)
  simp only [VM.jumpBy, this, hd]
  rw [if_neg (by omega)]
  congr

theorem step_br {d : BitVec 64} (h : At code p (Opc.BR_8.byte :: bytes8 d)) :
    VM.step F P code K ⟨p, st, fp, loops, g, w, out⟩ = VM.jumpBy ⟨p + 9, st, fp, loops, g, w, out⟩ d := by
  rw [step_fetch h, dispatch_br]
  simp only [VM.readInt, h.tail.int']

/-- The conditional jumps. -/
inductive BrTest : Opc → (Val → Bool) → Prop where
  | f : BrTest .BRF_8 Val.falsey
  | t : BrTest .BRT_8 (fun v => !v.falsey)
  | n : BrTest .BRN_8 (fun v => v != .undef)

theorem step_cond {o : Opc} {test : Val → Bool} (ho : BrTest o test) (a : Val) {d : BitVec 64} (h : At code p (o.byte :: bytes8 d)) :
    VM.step F P code K ⟨p, a :: st, fp, loops, g, w, out⟩ =
      if test a then VM.jumpBy ⟨p + 9, st, fp, loops, g, w, out⟩ d else .next ⟨p + 9, st, fp, loops, g, w, out⟩ := by
  cases ho <;>
  · simp only [VM.step, VM.readByte, h.head]
    show VM.readInt _ _ _ = _
    simp only [VM.readInt, h.tail.int', VM.branch]

theorem step_lit {i : Nat} {v : Val} (hi : i < 128) (h : At code p [Opc.LIT.byte, BitVec.ofNat 8 i]) (hv : K[i]? = some v)
    (hr : st.length < stackSize) :
    VM.step F P code K ⟨p, st, fp, loops, g, w, out⟩ = .next ⟨p + 2, v :: st, fp, loops, g, w, out⟩ := by
  rw [step_fetch h, dispatch_lit]
  simp only [VM.readByte, h.tail.head, BitVec.toNat_ofNat]
  rw [Nat.mod_eq_of_lt (by omega), hv]
  simp only [VM.push]
  rw [if_neg (by omega)]

theorem step_lit8 {i : Nat} {v : Val} (hi : i < 2 ^ 63) (h : At code p (Opc.LIT8.byte :: bytes8 (BitVec.ofNat 64 i)))
    (hv : K[i]? = some v) (hr : st.length < stackSize) :
    VM.step F P code K ⟨p, st, fp, loops, g, w, out⟩ = .next ⟨p + 9, v :: st, fp, loops, g, w, out⟩ := by
  rw [step_fetch h, dispatch_lit8]
  simp only [VM.readInt, h.tail.int', BitVec.toNat_ofNat]
  rw [Nat.mod_eq_of_lt (by omega), hv]
  simp only [VM.push]
  rw [if_neg (by omega)]

theorem step_gload {i : Nat} {x : Name} (hi : i < 2 ^ 63) (h : At code p (Opc.GLOAD_8.byte :: bytes8 (BitVec.ofNat 64 i)))
    (hx : K[i]? = some (.str x)) {v : Val} (hv : g x = some v) (hr : st.length < stackSize) :
    VM.step F P code K ⟨p, st, fp, loops, g, w, out⟩ = .next ⟨p + 9, v :: st, fp, loops, g, w, out⟩ := by
  rw [step_fetch h, dispatch_gload]
  simp only [VM.readInt, h.tail.int', BitVec.toNat_ofNat]
  rw [Nat.mod_eq_of_lt (by omega), hx]
  simp only [VM.push, hv]
  rw [if_neg (by omega)]; rfl

theorem step_gstore {i : Nat} {x : Name} {v : Val} (hi : i < 2 ^ 63) (h : At code p (Opc.GSTORE_8.byte :: bytes8 (BitVec.ofNat 64 i)))
    (hx : K[i]? = some (.str x)) :
    VM.step F P code K ⟨p, v :: st, fp, loops, g, w, out⟩ =
      .next ⟨p + 9, st, fp, loops, fun y => if y = x then some v else g y, w, out⟩ := by
  rw [step_fetch h, dispatch_gstore]
  simp only [VM.readInt, h.tail.int', BitVec.toNat_ofNat]
  rw [Nat.mod_eq_of_lt (by omega), hx]

theorem slot_eq {i : Nat} (hi : i < st.length) (m : VM W) (hm : m.stack = st) : VM.slot m i = some st[st.length - 1 - i] := by
  simp only [VM.slot, hm]
  rw [if_neg (by omega), if_pos (by simpa using hi)]
  simp

theorem step_lload {i j : Nat} {v : Val} (hi : i < 128) (h : At code p [Opc.LLOAD.byte, BitVec.ofNat 8 i])
    (hj : fp + i + 1 + j + 1 = st.length) (hfp : 0 ≤ fp + 1) (hv : st[j]? = some v) (hr : st.length < stackSize) :
    VM.step F P code K ⟨p, st, fp, loops, g, w, out⟩ = .next ⟨p + 2, v :: st, fp, loops, g, w, out⟩ := by
  rw [step_fetch h, dispatch_lload]
  have e1 : (BitVec.ofNat 8 i).toInt = i := by rw [BitVec.toInt_eq_toNat_of_lt] <;> simp <;> omega
  obtain ⟨q, hq⟩ : ∃ q : Nat, fp + (i : Int) + 1 = q := ⟨(fp + i + 1).toNat, by omega⟩
  simp only [VM.readByte, h.tail.head, e1, hq]
  rw [slot_eq (st := st) (by omega) _ rfl]
  simp only [VM.push]
  rw [if_neg (by omega)]
  have hjq : st.length - 1 - q = j := by omega
  have : st[st.length - 1 - q]'(by omega) = v := by
    have : j < st.length := by omega
    rw [List.getElem?_eq_getElem this] at hv
    simp only [hjq]; simpa using hv
  rw [this]

theorem step_lstore {i j : Nat} {v : Val} (hi : i < 128) (h : At code p [Opc.LSTORE.byte, BitVec.ofNat 8 i])
    (hj : fp + i + 1 + j + 1 = st.length) (hfp : 0 ≤ fp + 1) :
    VM.step F P code K ⟨p, v :: st, fp, loops, g, w, out⟩ = .next ⟨p + 2, st.set j v, fp, loops, g, w, out⟩ := by
  rw [step_fetch h, dispatch_lstore]
  have e1 : (BitVec.ofNat 8 i).toInt = i := by rw [BitVec.toInt_eq_toNat_of_lt] <;> simp <;> omega
  obtain ⟨q, hq⟩ : ∃ q : Nat, fp + (i : Int) + 1 = q := ⟨(fp + i + 1).toNat, by omega⟩
  simp only [VM.readByte, h.tail.head, e1, hq]
  rw [slot_eq (st := v :: st) (by simp; omega) _ rfl]
  have hjq : (v :: st).length - 1 - q = j + 1 := by simp; omega
  simp [VM.depth] at hjq ⊢
  rw [hjq]; simp

theorem step_moveup {i j : Nat} {v : Val} (hi : i < 128) (h : At code p [Opc.MOVEUP_FP.byte, BitVec.ofNat 8 i])
    (hj : fp + i + 1 + j + 1 = st.length) (hfp : 0 ≤ fp + 1) (hv : st[j]? = some v) :
    VM.step F P code K ⟨p, st, fp, loops, g, w, out⟩ = .next ⟨p + 2, v :: st.eraseIdx j, fp, loops, g, w, out⟩ := by
  rw [step_fetch h, dispatch_moveup]
  have e1 : (BitVec.ofNat 8 i).toInt = i := by rw [BitVec.toInt_eq_toNat_of_lt] <;> simp <;> omega
  obtain ⟨q, hq⟩ : ∃ q : Nat, fp + (i : Int) + 1 = q := ⟨(fp + i + 1).toNat, by omega⟩
  simp only [VM.readByte, h.tail.head, e1, hq]
  rw [slot_eq (st := st) (by omega) _ rfl]
  have hjq : st.length - 1 - q = j := by omega
  have : st[st.length - 1 - q]'(by omega) = v := by
    have : j < st.length := by omega
    rw [List.getElem?_eq_getElem this] at hv
    simp only [hjq]; simpa using hv
  rw [this]
  simp only [VM.depth, Int.toNat_natCast, hjq]

/-- The two opcodes which collect values down to `Y_END`. -/
theorem splitEnd_eq (vs acc st : List Val) (h : ∀ v ∈ vs, v ≠ .end_) :
    splitEnd acc (vs ++ .end_ :: st) = some (vs.reverse ++ acc, st) := by
  induction vs generalizing acc with
  | nil => simp [splitEnd]
  | cons v vs ih =>
    have hv : v ≠ .end_ := h v (by simp)
    have : splitEnd acc (v :: (vs ++ .end_ :: st)) = splitEnd (v :: acc) (vs ++ .end_ :: st) := by
      cases v <;> first | contradiction | rfl
    rw [List.cons_append, this, ih _ (fun x hx => h x (by simp [hx]))]
    simp

theorem step_newlist {vs : List Val} (h : At code p (Opc.NEWLIST.byte :: c)) (hv : ∀ v ∈ vs, v ≠ .end_) :
    VM.step F P code K ⟨p, vs ++ .end_ :: st, fp, loops, g, w, out⟩ =
      VM.pushRes ⟨p + 1, st, fp, loops, g, w, out⟩ (P.newList w vs.reverse) := by
  rw [step_fetch h]
  show (match splitEnd [] (vs ++ .end_ :: st) with | some (vs, st) => _ | none => _) = _
  rw [splitEnd_eq _ _ _ hv]; simp

theorem step_newtable {vs : List Val} (h : At code p (Opc.NEWTABLE.byte :: c)) (hv : ∀ v ∈ vs, v ≠ .end_) :
    VM.step F P code K ⟨p, vs ++ .end_ :: st, fp, loops, g, w, out⟩ =
      VM.pushRes ⟨p + 1, st, fp, loops, g, w, out⟩ (P.newTable w (pairUp vs.reverse)) := by
  rw [step_fetch h]
  show (match splitEnd [] (vs ++ .end_ :: st) with | some (vs, st) => _ | none => _) = _
  rw [splitEnd_eq _ _ _ hv]; simp

theorem step_get {a k : Val} (h : At code p (Opc.GET.byte :: c)) :
    VM.step F P code K ⟨p, k :: a :: st, fp, loops, g, w, out⟩ =
      VM.pushRes ⟨p + 1, st, fp, loops, g, w, out⟩ (P.get w a k) := by
  rw [step_fetch h]; rfl

theorem step_slice {a x y : Val} (h : At code p (Opc.SLICE.byte :: c)) :
    VM.step F P code K ⟨p, y :: x :: a :: st, fp, loops, g, w, out⟩ =
      VM.pushRes ⟨p + 1, st, fp, loops, g, w, out⟩ (P.slice w a x y) := by
  rw [step_fetch h]; rfl

theorem step_set {a k v : Val} (h : At code p (Opc.SET.byte :: c)) :
    VM.step F P code K ⟨p, v :: k :: a :: st, fp, loops, g, w, out⟩ =
      match P.set w a k v with
      | (w, .ok _) => .next ⟨p + 1, st, fp, loops, g, w, out⟩
      | (w', .error e) => .stop ⟨p + 1, v :: k :: a :: st, fp, loops, g, w', out⟩ e := by
  rw [step_fetch h]; rfl

theorem step_echo {v : Val} {b : Byte} (h : At code p (Opc.ECHO.byte :: b :: c)) :
    VM.step F P code K ⟨p, v :: st, fp, loops, g, w, out⟩ =
      match P.tostr w v with
      | (w, .ok t) => .next ⟨p + 2, st, fp, loops, g, w, out ++ echoBytes t⟩
      | (w', .error e) => .stop ⟨p + 2, v :: st, fp, loops, g, w', out⟩ e := by
  rw [step_fetch h, dispatch_echo]
  simp only [VM.readByte, h.tail.head]

theorem step_assert {v : Val} (h : At code p (Opc.ASS.byte :: c)) :
    VM.step F P code K ⟨p, v :: st, fp, loops, g, w, out⟩ =
      if v.falsey then match P.tostr w v with
        | (w, .ok _) => .stop ⟨p + 1, st, fp, loops, g, w, out⟩ .assert
        | (w', .error e) => .stop ⟨p + 1, v :: st, fp, loops, g, w', out⟩ e
      else .next ⟨p + 1, st, fp, loops, g, w, out⟩ := by
  rw [step_fetch h]; rfl

theorem step_initfor {v : Val} (h : At code p (Opc.INITFOR.byte :: c)) (hl : loops.length < numLoopFrames) :
    VM.step F P code K ⟨p, v :: st, fp, loops, g, w, out⟩ = .next ⟨p + 1, st, fp, (0, v) :: loops, g, w, out⟩ := by
  rw [step_fetch h]
  show (if _ then _ else _) = _
  rw [if_neg (by simpa using hl)]

theorem step_endfor {l : Nat × Val} (h : At code p (Opc.ENDFOR.byte :: c)) :
    VM.step F P code K ⟨p, st, fp, l :: loops, g, w, out⟩ = .next ⟨p + 1, st, fp, loops, g, w, out⟩ := by
  rw [step_fetch h]; rfl

theorem step_iter {i : Nat} {v : Val} (h : At code p (Opc.ITER_1.byte :: c)) (hr : st.length + 1 < stackSize) :
    VM.step F P code K ⟨p, st, fp, (i, v) :: loops, g, w, out⟩ =
      match P.next w v i with
      | (w, .ok none) => .next ⟨p + 1, .bool false :: st, fp, (i, v) :: loops, g, w, out⟩
      | (w, .ok (some (u, j))) => .next ⟨p + 1, .bool true :: u :: st, fp, (j, v) :: loops, g, w, out⟩
      | (w, .error e) => .stop ⟨p + 1, st, fp, (i, v) :: loops, g, w, out⟩ e := by
  rw [step_fetch h]
  show (match P.next w v i with | (w, .ok none) => _ | (w, .ok (some (v, j))) => _ | (w, .error e) => _) = _
  rcases P.next w v i with ⟨w', _ | _ | ⟨u, j⟩⟩
  · rfl
  · simp only [VM.push]; rw [if_neg (by omega)]
  · simp only [VM.push]
    rw [if_neg (by omega)]
    simp only [List.length_cons]
    rw [if_neg (by omega)]

theorem step_halt (h : At code p (Opc.HALT.byte :: c)) :
    VM.step F P code K ⟨p, st, fp, loops, g, w, out⟩ = .stop ⟨p + 1, st, fp, loops, g, w, out⟩ .halt := by
  rw [step_fetch h]; rfl

end
end Yasl
