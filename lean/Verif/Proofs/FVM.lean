import Verif.Model.FVM
import Verif.Spec.FLang
import Verif.Proofs.CompileExpr
set_option autoImplicit false
/-! # Running pieces of bytecode with functions -/
namespace Yasl

section
variable {W : Type} {F : FloatOps} {P : Prims W} {Q : W → Val → List Val → PRes W (List Val)} {code : List Byte} {K : List Val}

theorem FVM.run_add (a b : Nat) (m : FVM W) : FVM.run F P Q code K (a + b) m =
    match FVM.run F P Q code K a m with
    | .next m' => FVM.run F P Q code K b m'
    | .stop m' e => .stop m' e := by
  induction a generalizing m with
  | zero => simp [FVM.run]
  | succ a ih =>
    rw [Nat.succ_add]
    simp only [FVM.run]
    cases FVM.step F P Q code K m with
    | next m' => exact ih m'
    | stop m' e => rfl

theorem FVM.run_one (m : FVM W) : FVM.run F P Q code K 1 m = m.step F P Q code K := by
  simp only [FVM.run]
  cases FVM.step F P Q code K m <;> rfl

/-- A limit of the implementation was reached: the stack is full, there are 1000 nested calls, or 16 nested loops over collections. -/
def LimitStop (m : FVM W) (e : RtErr) : Prop :=
  (e = .stackOverflow ∧ (stackSize ≤ m.vm.stack.length ∨ numFrames ≤ m.frames.length)) ∨ (e = .ub ∧ numLoopFrames ≤ m.vm.loops.length)

/-- The machine and the shared state agree. -/
def Agrees (m : FVM W) (sh : Sh W) : Prop := m.vm.world = sh.world ∧ m.vm.out = sh.out ∧ m.vm.globals = sh.globals

variable (F P Q code K)

/-- From `m` the machine does what the result `r` says, unless a limit of the implementation is reached. -/
def FSim {α : Type} (n : Nat) (m : FVM W) (r : FRes W α) (T : Sh W → α → FVM W → Prop) : Prop :=
  (∃ k m' e, FVM.run F P Q code K k m = .stop m' e ∧ LimitStop m' e) ∨
  match r with
  | (sh, .ok a) => ∃ k m', FVM.run F P Q code K k m = .next m' ∧ T sh a m'
  | (sh, .error (.err e)) => ∃ k m', FVM.run F P Q code K k m = .stop m' e ∧ Agrees m' sh
  | (sh, .error .timeout) => ∃ k m', n ≤ k ∧ FVM.run F P Q code K k m = .next m' ∧ Agrees m' sh
  | (_, .error .outside) => True

variable {F P Q code K}

theorem FSim.after {α : Type} {n : Nat} {m m1 : FVM W} {r : FRes W α} {T : Sh W → α → FVM W → Prop} {k : Nat}
    (hk : FVM.run F P Q code K k m = .next m1) (h : FSim F P Q code K n m1 r T) : FSim F P Q code K n m r T := by
  have run2 : ∀ j, FVM.run F P Q code K (k + j) m = FVM.run F P Q code K j m1 := fun j => by rw [FVM.run_add, hk]
  rcases h with ⟨j, m', e, h1, h2⟩ | h
  · exact .inl ⟨k + j, m', e, by rw [run2, h1], h2⟩
  · right
    obtain ⟨sh, a | a⟩ := r
    · cases a with
      | err e =>
        obtain ⟨j, m', h1, h2⟩ := h
        exact ⟨k + j, m', by rw [run2, h1], h2⟩
      | timeout =>
        obtain ⟨j, m', h0, h1, h2⟩ := h
        exact ⟨k + j, m', by omega, by rw [run2, h1], h2⟩
      | outside => trivial
    · obtain ⟨j, m', h1, h2⟩ := h
      exact ⟨k + j, m', by rw [run2, h1], h2⟩

theorem FSim.step {α : Type} {n : Nat} {m m1 : FVM W} {r : FRes W α} {T : Sh W → α → FVM W → Prop}
    (hk : FVM.step F P Q code K m = .next m1) (h : FSim F P Q code K n m1 r T) : FSim F P Q code K n m r T :=
  FSim.after (k := 1) (by rw [FVM.run_one, hk]) h

theorem FSim.step' {α : Type} {n : Nat} {m m1 : FVM W} {r : FRes W α} {T : Sh W → α → FVM W → Prop}
    (hk : FVM.step F P Q code K m = .next m1) (h : FSim F P Q code K n m1 r T) : FSim F P Q code K (n + 1) m r T := by
  have run2 : ∀ j, FVM.run F P Q code K (1 + j) m = FVM.run F P Q code K j m1 := fun j => by rw [FVM.run_add, FVM.run_one, hk]
  rcases h with ⟨j, m', e, h1, h2⟩ | h
  · exact .inl ⟨1 + j, m', e, by rw [run2, h1], h2⟩
  · right
    obtain ⟨sh, a | a⟩ := r
    · cases a with
      | err e =>
        obtain ⟨j, m', h1, h2⟩ := h
        exact ⟨1 + j, m', by rw [run2, h1], h2⟩
      | timeout =>
        obtain ⟨j, m', h0, h1, h2⟩ := h
        exact ⟨1 + j, m', by omega, by rw [run2, h1], h2⟩
      | outside => trivial
    · obtain ⟨j, m', h1, h2⟩ := h
      exact ⟨1 + j, m', by rw [run2, h1], h2⟩

theorem FSim.weaken {α : Type} {n n' : Nat} {m : FVM W} {r : FRes W α} {T : Sh W → α → FVM W → Prop} (hn : n' ≤ n)
    (h : FSim F P Q code K n m r T) : FSim F P Q code K n' m r T := by
  rcases h with h | h
  · exact .inl h
  · right
    obtain ⟨sh, a | a⟩ := r
    · cases a with
      | err e => exact h
      | timeout =>
        obtain ⟨j, m', h0, h1, h2⟩ := h
        exact ⟨j, m', by omega, h1, h2⟩
      | outside => trivial
    · exact h

theorem FSim.bind {α β : Type} {n : Nat} {m : FVM W} {r : FRes W α} {T : Sh W → α → FVM W → Prop} {f : Sh W → α → FRes W β}
    {T' : Sh W → β → FVM W → Prop} (h : FSim F P Q code K n m r T)
    (h' : ∀ sh a m', r = (sh, .ok a) → T sh a m' → FSim F P Q code K n m' (f sh a) T') : FSim F P Q code K n m (r.bind f) T' := by
  rcases h with h | h
  · exact .inl h
  · obtain ⟨sh, a | a⟩ := r
    · right
      cases a with
      | err e => exact h
      | timeout => exact h
      | outside => trivial
    · obtain ⟨k, m', h1, h2⟩ := h
      exact FSim.after h1 (h' sh a m' rfl h2)

theorem FSim.mono {α : Type} {n : Nat} {m : FVM W} {r : FRes W α} {T T' : Sh W → α → FVM W → Prop} (h : FSim F P Q code K n m r T)
    (h' : ∀ sh a m', r = (sh, .ok a) → T sh a m' → T' sh a m') : FSim F P Q code K n m r T' := by
  rcases h with h | h
  · exact .inl h
  · right
    obtain ⟨sh, a | a⟩ := r
    · cases a <;> exact h
    · obtain ⟨k, m', h1, h2⟩ := h
      exact ⟨k, m', h1, h' sh a m' rfl h2⟩

theorem FSim.done {α : Type} {n : Nat} {m : FVM W} {sh : Sh W} {a : α} {T : Sh W → α → FVM W → Prop} (h : T sh a m) :
    FSim F P Q code K n m (sh, .ok a) T := .inr ⟨0, m, rfl, h⟩

theorem FSim.fail {α : Type} {n : Nat} {m m' : FVM W} {sh : Sh W} {e : RtErr} {T : Sh W → α → FVM W → Prop}
    (hk : FVM.step F P Q code K m = .stop m' e) (h : Agrees m' sh) : FSim F P Q code K n m (sh, .error (.err e)) T :=
  .inr ⟨1, m', by rw [FVM.run_one, hk], h⟩

theorem FSim.limit {α : Type} {n : Nat} {m m' : FVM W} {e : RtErr} {r : FRes W α} {T : Sh W → α → FVM W → Prop}
    (hk : FVM.step F P Q code K m = .stop m' e) (h : LimitStop m' e) : FSim F P Q code K n m r T :=
  .inl ⟨1, m', e, by rw [FVM.run_one, hk], h⟩

/-- A step which pushes a value. -/
theorem FSim.push {α : Type} {n : Nat} {m : FVM W} {vm1 : VM W} {v : Val} {r : FRes W α} {T : Sh W → α → FVM W → Prop}
    (hk : FVM.step F P Q code K m = m.lift (vm1.push v))
    (h : FSim F P Q code K n { m with vm := { vm1 with stack := v :: vm1.stack } } r T) : FSim F P Q code K n m r T := by
  by_cases hf : vm1.stack.length ≥ stackSize
  · rw [VM.push, if_pos hf] at hk
    exact FSim.limit hk (.inl ⟨rfl, .inl hf⟩)
  · rw [VM.push, if_neg hf] at hk
    exact FSim.step hk h

/-- A step which pushes the result of an operation. -/
theorem FSim.pushRes {n : Nat} {m : FVM W} {vm1 : VM W} {r : PRes W Val} {sh : Sh W} {T : Sh W → Val → FVM W → Prop}
    (hk : FVM.step F P Q code K m = m.lift (vm1.pushRes r)) (ho : vm1.out = sh.out) (hg : vm1.globals = sh.globals)
    (h : ∀ w v, r = (w, .ok v) → T { sh with world := w } v { m with vm := { vm1 with stack := v :: vm1.stack, world := w } }) :
    FSim F P Q code K n m (sh.prim r) T := by
  obtain ⟨w, e | v⟩ := r
  · exact FSim.fail hk ⟨rfl, ho, hg⟩
  · exact FSim.push (vm1 := { vm1 with world := w }) hk (FSim.done (h w v rfl))

/-! ## Steps -/

theorem fstep_lift {o : Opc} {m : FVM W} (h : code[m.vm.pc]? = some o.byte) :
    FVM.step F P Q code K m = m.lift (VM.step F P code K m.vm) := by
  simp only [FVM.step, FVM.readByte, h, VM.step, VM.readByte]
  cases o <;> rfl

theorem fstep_fetch {m : FVM W} {b : Byte} {c : List Byte} (h : At code m.vm.pc (b :: c)) :
    FVM.step F P Q code K m = FVM.dispatch F P Q code K b { m with vm := { m.vm with pc := m.vm.pc + 1 } } := by
  simp only [FVM.step, FVM.readByte, h.head]

variable {p : Nat} {st : List Val} {fp : Int} {loops : List (Nat × Val)} {g : Name → Option Val} {w : W} {out : List Byte}
  {c : List Byte} {nfp : Int} {frs : List CFrame} {cls : List (Nat × List Nat)}

/-- A step of `Verif.Model.VM`. -/
theorem fstep_of {o : Opc} {r : StepRes W} (h : At code p (o.byte :: c)) (hs : VM.step F P code K ⟨p, st, fp, loops, g, w, out⟩ = r) :
    FVM.step F P Q code K ⟨⟨p, st, fp, loops, g, w, out⟩, nfp, frs, cls⟩ =
      FVM.lift ⟨⟨p, st, fp, loops, g, w, out⟩, nfp, frs, cls⟩ r := by
  rw [fstep_lift (o := o) h.head, hs]

/-! ### Pushes without a bound on the stack -/

theorem stepv_push (o : Opc) (v : Val)
    (ho : (o = .NCONST ∧ v = .undef) ∨ (o = .BCONST_F ∧ v = .bool false) ∨ (o = .BCONST_T ∧ v = .bool true) ∨ (o = .END ∧ v = .end_))
    (h : At code p (o.byte :: c)) :
    VM.step F P code K ⟨p, st, fp, loops, g, w, out⟩ = VM.push ⟨p + 1, st, fp, loops, g, w, out⟩ v := by
  rcases ho with ⟨rfl, rfl⟩ | ⟨rfl, rfl⟩ | ⟨rfl, rfl⟩ | ⟨rfl, rfl⟩ <;> (rw [step_fetch h]; rfl)

theorem stepv_dup (v : Val) (h : At code p (Opc.DUP.byte :: c)) :
    VM.step F P code K ⟨p, v :: st, fp, loops, g, w, out⟩ = VM.push ⟨p + 1, v :: st, fp, loops, g, w, out⟩ v := by
  rw [step_fetch h]; rfl

theorem stepv_lit {i : Nat} {v : Val} (hi : i < 128) (h : At code p [Opc.LIT.byte, BitVec.ofNat 8 i]) (hv : K[i]? = some v) :
    VM.step F P code K ⟨p, st, fp, loops, g, w, out⟩ = VM.push ⟨p + 2, st, fp, loops, g, w, out⟩ v := by
  rw [step_fetch h, dispatch_lit]
  simp only [VM.readByte, h.tail.head, BitVec.toNat_ofNat]
  rw [Nat.mod_eq_of_lt (by omega), hv]

theorem stepv_lit8 {i : Nat} {v : Val} (hi : i < 2 ^ 63) (h : At code p (Opc.LIT8.byte :: bytes8 (BitVec.ofNat 64 i)))
    (hv : K[i]? = some v) :
    VM.step F P code K ⟨p, st, fp, loops, g, w, out⟩ = VM.push ⟨p + 9, st, fp, loops, g, w, out⟩ v := by
  rw [step_fetch h, dispatch_lit8]
  simp only [VM.readInt, h.tail.int', BitVec.toNat_ofNat]
  rw [Nat.mod_eq_of_lt (by omega), hv]

theorem stepv_gload {i : Nat} {x : Name} (hi : i < 2 ^ 63) (h : At code p (Opc.GLOAD_8.byte :: bytes8 (BitVec.ofNat 64 i)))
    (hx : K[i]? = some (.str x)) {v : Val} (hv : g x = some v) :
    VM.step F P code K ⟨p, st, fp, loops, g, w, out⟩ = VM.push ⟨p + 9, st, fp, loops, g, w, out⟩ v := by
  rw [step_fetch h, dispatch_gload]
  simp only [VM.readInt, h.tail.int', BitVec.toNat_ofNat]
  rw [Nat.mod_eq_of_lt (by omega), hx]
  simp only [hv]; rfl

theorem stepv_lload {i j : Nat} {v : Val} (hi : i < 128) (h : At code p [Opc.LLOAD.byte, BitVec.ofNat 8 i])
    (hj : fp + i + 1 + j + 1 = st.length) (hfp : 0 ≤ fp + 1) (hv : st[j]? = some v) :
    VM.step F P code K ⟨p, st, fp, loops, g, w, out⟩ = VM.push ⟨p + 2, st, fp, loops, g, w, out⟩ v := by
  rw [step_fetch h, dispatch_lload]
  have e1 : (BitVec.ofNat 8 i).toInt = i := by rw [BitVec.toInt_eq_toNat_of_lt] <;> simp <;> omega
  obtain ⟨q, hq⟩ : ∃ q : Nat, fp + (i : Int) + 1 = q := ⟨(fp + i + 1).toNat, by omega⟩
  simp only [VM.readByte, h.tail.head, e1, hq]
  rw [slot_eq (st := st) (by omega) _ rfl]
  have hjq : st.length - 1 - q = j := by omega
  have : st[st.length - 1 - q]'(by omega) = v := by
    have : j < st.length := by omega
    rw [List.getElem?_eq_getElem this] at hv
    simp only [hjq]; simpa using hv
  rw [this]

theorem stepv_iter {i : Nat} {v : Val} (h : At code p (Opc.ITER_1.byte :: c)) :
    VM.step F P code K ⟨p, st, fp, (i, v) :: loops, g, w, out⟩ =
      match P.next w v i with
      | (w, .ok none) => VM.push ⟨p + 1, st, fp, (i, v) :: loops, g, w, out⟩ (.bool false)
      | (w, .ok (some (u, j))) => match VM.push ⟨p + 1, st, fp, (j, v) :: loops, g, w, out⟩ u with
        | .next m => m.push (.bool true)
        | r => r
      | (w, .error e) => .stop ⟨p + 1, st, fp, (i, v) :: loops, g, w, out⟩ e := by
  rw [step_fetch h]
  rfl

theorem stepv_initfor_full {v : Val} (h : At code p (Opc.INITFOR.byte :: c)) (hl : ¬ loops.length < numLoopFrames) :
    VM.step F P code K ⟨p, v :: st, fp, loops, g, w, out⟩ = .stop ⟨p + 1, v :: st, fp, loops, g, w, out⟩ .ub := by
  rw [step_fetch h]
  show (if _ then _ else _) = _
  rw [if_pos (by simpa using hl)]

/-! ### Functions -/

theorem fdispatch_fconst (m : FVM W) : FVM.dispatch F P Q code K opFCONST m = m.fconst code := rfl
theorem fdispatch_cconst (m : FVM W) : FVM.dispatch F P Q code K opCCONST m = m.cconst code := rfl
theorem fdispatch_uload (m : FVM W) : FVM.dispatch F P Q code K opULOAD m = m.uload code := rfl
theorem fdispatch_ustore (m : FVM W) : FVM.dispatch F P Q code K opUSTORE m = m.ustore code := rfl
theorem fdispatch_initmc (m : FVM W) : FVM.dispatch F P Q code K opINIT_MC m = m.initMc P code K := rfl
theorem fdispatch_initcall (m : FVM W) : FVM.dispatch F P Q code K opINIT_CALL m = m.initCall code := rfl
theorem fdispatch_call (m : FVM W) : FVM.dispatch F P Q code K opCALL m = m.call Q code := rfl
theorem fdispatch_ret (m : FVM W) : FVM.dispatch F P Q code K opRET m = m.readByte code fun len m => m.exitFrame len.toNat := rfl

variable {α : Type} {n : Nat} {r : FRes W α} {T : Sh W → α → FVM W → Prop}

theorem FSim.fconst {d : Nat} (hd : d < 2 ^ 63) (h : At code p (opFCONST :: bytes8 (BitVec.ofInt 64 d)))
    (hs : FSim F P Q code K n ⟨⟨p + 9 + d, .ref .fn (p + 9) :: st, fp, loops, g, w, out⟩, nfp, frs, cls⟩ r T) :
    FSim F P Q code K n ⟨⟨p, st, fp, loops, g, w, out⟩, nfp, frs, cls⟩ r T := by
  by_cases hf : st.length ≥ stackSize
  · refine FSim.limit (m' := ⟨⟨p + 9, st, fp, loops, g, w, out⟩, nfp, frs, cls⟩) (e := .stackOverflow) ?_ (.inl ⟨rfl, .inl hf⟩)
    rw [fstep_fetch h, fdispatch_fconst]
    simp only [FVM.fconst, FVM.readInt]
    rw [h.tail.int']
    simp only [VM.push, if_pos hf, FVM.lift]
  · refine FSim.step ?_ hs
    rw [fstep_fetch h, fdispatch_fconst]
    simp only [FVM.fconst, FVM.readInt]
    rw [h.tail.int']
    simp only [VM.push, if_neg hf]
    rw [jumpBy_forward hd]; rfl

theorem FVM.capture_append (m : FVM W) (as bs : List Byte) (us vs : List Nat) (h1 : m.capture as = some us) (h2 : m.capture bs = some vs) :
    m.capture (as ++ bs) = some (us ++ vs) := by
  induction as generalizing us with
  | nil => simp [FVM.capture] at h1; subst h1; simpa using h2
  | cons a as ih =>
    simp only [FVM.capture, List.cons_append] at h1 ⊢
    generalize hsl : (if 0 ≤ a.toInt then _ else _ : Option Nat) = sl at h1 ⊢
    cases hc : m.capture as with
    | none => rw [hc] at h1; cases sl <;> simp at h1
    | some us' =>
      rw [hc] at h1
      cases sl with
      | none => simp at h1
      | some s =>
        simp at h1; subst h1
        rw [ih us' hc]; rfl

theorem FSim.cconst {d : Nat} {us : List Byte} {slots : List Nat} (hd : d < 2 ^ 63) (hu : us.length < 256)
    (h : At code p (opCCONST :: bytes8 (BitVec.ofInt 64 d)))
    (h2 : At code (p + 9 + d) (BitVec.ofNat 8 us.length :: us))
    (hc : FVM.capture ⟨⟨p + 9 + d + 1, st, fp, loops, g, w, out⟩, nfp, frs, cls⟩ us = some slots)
    (hs : FSim F P Q code K n ⟨⟨p + 9 + d + 1 + us.length, .ref .closure cls.length :: st, fp, loops, g, w, out⟩, nfp, frs,
      cls ++ [(p + 9, slots)]⟩ r T) :
    FSim F P Q code K n ⟨⟨p, st, fp, loops, g, w, out⟩, nfp, frs, cls⟩ r T := by
  have hlen : us.length % 2 ^ 8 = us.length := Nat.mod_eq_of_lt (by omega)
  have htk : (code.drop (p + 9 + d + 1)).take us.length = us := by
    obtain ⟨t, ht⟩ := h2.tail
    rw [← ht]; simp
  have hle : p + 9 + d + 1 + us.length ≤ code.length := by
    have h3 : p + 9 + d < code.length := by
      have := h2.head
      by_contra hc'
      rw [List.getElem?_eq_none (by omega)] at this; simp at this
    have := h2.length_le (by omega)
    simp at this; omega
  have key : FVM.step F P Q code K ⟨⟨p, st, fp, loops, g, w, out⟩, nfp, frs, cls⟩ =
      FVM.lift ⟨⟨p + 9 + d + 1 + us.length, st, fp, loops, g, w, out⟩, nfp, frs, cls ++ [(p + 9, slots)]⟩
        (VM.push ⟨p + 9 + d + 1 + us.length, st, fp, loops, g, w, out⟩ (.ref .closure cls.length)) := by
    rw [fstep_fetch h, fdispatch_cconst]
    simp only [FVM.cconst, FVM.readInt]
    rw [h.tail.int']
    simp only
    rw [jumpBy_forward hd]
    simp only [FVM.readByte]
    have e : p + 1 + 8 + d = p + 9 + d := by omega
    rw [e, h2.head]
    simp only [BitVec.toNat_ofNat, hlen, htk, hc, if_pos hle]
  by_cases hf : st.length ≥ stackSize
  · rw [VM.push, if_pos hf] at key
    exact FSim.limit key (.inl ⟨rfl, .inl hf⟩)
  · rw [VM.push, if_neg hf] at key
    exact FSim.step key hs

theorem FSim.uload {i s j : Nat} {cl : Nat} {e : Nat} {slots : List Nat} {v : Val} (hi : i < 256) (h : At code p [opULOAD, BitVec.ofNat 8 i])
    (hfp : VM.slot (⟨p + 2, st, fp, loops, g, w, out⟩ : VM W) fp = some (.ref .closure cl)) (hcl : cls[cl]? = some (e, slots)) (hsl : slots[i]? = some s)
    (hj : s + j + 1 = st.length) (hv : st[j]? = some v)
    (hs : FSim F P Q code K n ⟨⟨p + 2, v :: st, fp, loops, g, w, out⟩, nfp, frs, cls⟩ r T) :
    FSim F P Q code K n ⟨⟨p, st, fp, loops, g, w, out⟩, nfp, frs, cls⟩ r T := by
  refine FSim.push (vm1 := ⟨p + 2, st, fp, loops, g, w, out⟩) (v := v) ?_ hs
  rw [fstep_fetch h, fdispatch_uload]
  simp only [FVM.uload, FVM.readByte]
  rw [h.tail.head]
  simp only [FVM.upvalues, BitVec.toNat_ofNat]
  rw [Nat.mod_eq_of_lt (by omega)]
  rw [show p + 1 + 1 = p + 2 from rfl, hfp]
  simp only [hcl, Option.map_some, Option.getD_some, hsl]
  rw [slot_eq (st := st) (by omega) _ rfl]
  have hjq : st.length - 1 - s = j := by omega
  have : st[st.length - 1 - s]'(by omega) = v := by
    have : j < st.length := by omega
    rw [List.getElem?_eq_getElem this] at hv
    simp only [hjq]; simpa using hv
  rw [this]
  rfl

theorem FSim.ustore {i s j : Nat} {cl : Nat} {e : Nat} {slots : List Nat} {v : Val} (hi : i < 256) (h : At code p [opUSTORE, BitVec.ofNat 8 i])
    (hfp : VM.slot (⟨p + 2, v :: st, fp, loops, g, w, out⟩ : VM W) fp = some (.ref .closure cl)) (hcl : cls[cl]? = some (e, slots)) (hsl : slots[i]? = some s)
    (hj : s + j + 1 = st.length)
    (hs : FSim F P Q code K n ⟨⟨p + 2, st.set j v, fp, loops, g, w, out⟩, nfp, frs, cls⟩ r T) :
    FSim F P Q code K n ⟨⟨p, v :: st, fp, loops, g, w, out⟩, nfp, frs, cls⟩ r T := by
  refine FSim.step ?_ hs
  rw [fstep_fetch h, fdispatch_ustore]
  simp only [FVM.ustore, FVM.readByte]
  rw [h.tail.head]
  simp only [FVM.upvalues, BitVec.toNat_ofNat]
  rw [Nat.mod_eq_of_lt (by omega)]
  rw [show p + 1 + 1 = p + 2 from rfl, hfp]
  simp only [hcl, Option.map_some, Option.getD_some, hsl]
  rw [slot_eq (st := st) (by omega) _ rfl]
  have hjq : st.length - 1 - s = j := by omega
  simp [VM.depth, hjq]

/-- The frame which `O_INIT_CALL` makes. -/
theorem FSim.initCall {b : Byte} {v : Val} (h : At code p [opINIT_CALL, b]) (hc : v.isFn)
    (hs : FSim F P Q code K n ⟨⟨p + 2, v :: st, fp, loops, g, w, out⟩, st.length, ⟨p + 2, fp, nfp, (loops.length : Int) - 1, b.toInt⟩ :: frs, cls⟩ r T) :
    FSim F P Q code K n ⟨⟨p, v :: st, fp, loops, g, w, out⟩, nfp, frs, cls⟩ r T := by
  have hcb : isCallable v = true := by
    unfold Val.isFn at hc; unfold isCallable; split at hc <;> simp_all
  by_cases hf : frs.length ≥ numFrames
  · refine FSim.limit (m' := ⟨⟨p + 2, v :: st, fp, loops, g, w, out⟩, nfp, frs, cls⟩) (e := .stackOverflow) ?_ (.inl ⟨rfl, .inr hf⟩)
    rw [fstep_fetch h, fdispatch_initcall]
    simp only [FVM.initCall, FVM.readByte]
    rw [h.tail.head]
    simp only [FVM.initCallOffset, List.getElem?_cons_zero, hcb, if_true, if_pos hf]
  · refine FSim.step ?_ hs
    rw [fstep_fetch h, fdispatch_initcall]
    simp only [FVM.initCall, FVM.readByte]
    rw [h.tail.head]
    simp only [FVM.initCallOffset, List.getElem?_cons_zero, hcb, if_true, if_neg hf]
    congr 2
    simp

theorem notCallableErr_eq (v : Val) : notCallableErr v = callErr v := by
  cases v with
  | ref k a => cases k <;> rfl
  | _ => rfl

theorem not_isFn {v : Val} (h : ¬ v.isFn) : isCallable v = false := by
  unfold isCallable; unfold Val.isFn at h; split <;> simp_all

theorem FSim.initCall_err {b : Byte} {v : Val} {sh : Sh W} (h : At code p [opINIT_CALL, b]) (hc : ¬ v.isFn)
    (hw : sh.world = w) (ho : sh.out = out) (hg : sh.globals = g) :
    FSim F P Q code K n ⟨⟨p, v :: st, fp, loops, g, w, out⟩, nfp, frs, cls⟩ ((sh, .error (.err (callErr v))) : FRes W α) T := by
  refine FSim.fail (m' := ⟨⟨p + 2, v :: st, fp, loops, g, w, out⟩, nfp, frs, cls⟩) ?_ ⟨hw.symm, ho.symm, hg.symm⟩
  rw [fstep_fetch h, fdispatch_initcall]
  simp only [FVM.initCall, FVM.readByte]
  rw [h.tail.head]
  simp only [FVM.initCallOffset, List.getElem?_cons_zero, not_isFn hc, notCallableErr_eq]
  rfl

/-- `O_INIT_MC`. -/
theorem FSim.initMc {b : Byte} {v : Val} {i : Nat} {x : Val} {sh : Sh W} (k : Val → Sh W → FRes W α) (hi : i < 2 ^ 63)
    (h : At code p (opINIT_MC :: b :: bytes8 (BitVec.ofNat 64 i))) (hx : K[i]? = some x)
    (hw : sh.world = w) (ho : sh.out = out) (hg : sh.globals = g)
    (hs : ∀ w' f, P.get w v x = (w', .ok f) → f.isFn → FSim F P Q code K n
      ⟨⟨p + 10, v :: f :: st, fp, loops, g, w', out⟩, st.length, ⟨p + 10, fp, nfp, (loops.length : Int) - 1, b.toInt⟩ :: frs, cls⟩
      (k f { sh with world := w' }) T) :
    FSim F P Q code K n ⟨⟨p, v :: st, fp, loops, g, w, out⟩, nfp, frs, cls⟩
      ((sh.prim (P.get sh.world v x)).bind fun s f => checkFn f s (k f)) T := by
  subst hw
  have key : FVM.step F P Q code K ⟨⟨p, v :: st, fp, loops, g, sh.world, out⟩, nfp, frs, cls⟩ =
      if (v :: st).length ≥ stackSize then .stop ⟨⟨p + 2, v :: st, fp, loops, g, sh.world, out⟩, nfp, frs, cls⟩ .stackOverflow
      else match P.get sh.world v x with
          | (w, .ok f) => FVM.initCallOffset ⟨⟨p + 10, v :: f :: st, fp, loops, g, w, out⟩, nfp, frs, cls⟩ 1 b.toInt
          | (w, .error e) => .stop ⟨⟨p + 10, v :: st, fp, loops, g, w, out⟩, nfp, frs, cls⟩ e := by
    rw [fstep_fetch h, fdispatch_initmc]
    simp only [FVM.initMc, FVM.readByte]
    rw [h.tail.head]
    simp only [FVM.readInt]
    rw [show p + 1 + 1 = p + 2 from rfl, At.int' (h.tail.tail)]
    simp only [BitVec.toNat_ofNat]
    rw [Nat.mod_eq_of_lt (by omega), hx]
    rfl
  by_cases hf : (v :: st).length ≥ stackSize
  · rw [if_pos hf] at key
    exact FSim.limit key (.inl ⟨rfl, .inl hf⟩)
  · rw [if_neg hf] at key
    rcases hget : P.get sh.world v x with ⟨w', e | f⟩
    · rw [hget] at key
      simp only [Sh.prim, FRes.bind]
      exact FSim.fail key ⟨rfl, ho.symm, hg.symm⟩
    · rw [hget] at key
      simp only [Sh.prim, FRes.bind, checkFn]
      by_cases hc : f.isFn
      · rw [if_pos hc]
        have hcb : isCallable f = true := by
          unfold Val.isFn at hc; unfold isCallable; split at hc <;> simp_all
        by_cases hf2 : frs.length ≥ numFrames
        · simp only [FVM.initCallOffset, List.getElem?_cons_succ, List.getElem?_cons_zero, hcb, if_true, if_pos hf2] at key
          exact FSim.limit key (.inl ⟨rfl, .inr hf2⟩)
        · simp only [FVM.initCallOffset, List.getElem?_cons_succ, List.getElem?_cons_zero, hcb, if_true, if_neg hf2] at key
          refine FSim.step key ?_
          have := hs w' f hget hc
          convert this using 3
          simp
      · rw [if_neg hc]
        simp only [FVM.initCallOffset, List.getElem?_cons_succ, List.getElem?_cons_zero, not_isFn hc, notCallableErr_eq] at key
        exact FSim.fail key ⟨rfl, ho.symm, hg.symm⟩

/-! ### Calls and returns -/

/-- The arguments as the function gets them. -/
def padArgs (k : Nat) (args : List Val) : List Val := (args ++ List.replicate (k - args.length) Val.undef).take k

theorem bindArgs_names : ∀ (ps : List Name) (vs : List Val) (acc : LEnv), (bindArgs ps vs acc).map Prod.fst = ps.reverse ++ acc.map Prod.fst
  | [], _, acc => by simp [bindArgs]
  | x :: xs, [], acc => by rw [bindArgs, bindArgs_names]; simp
  | x :: xs, v :: vs, acc => by rw [bindArgs, bindArgs_names]; simp

theorem bindArgs_vals : ∀ (ps : List Name) (vs : List Val) (acc : LEnv),
    (bindArgs ps vs acc).map Prod.snd = (padArgs ps.length vs).reverse ++ acc.map Prod.snd
  | [], _, acc => by simp [bindArgs, padArgs]
  | x :: xs, [], acc => by
    rw [bindArgs, bindArgs_vals]
    simp only [padArgs, List.length_cons, List.length_nil, Nat.sub_zero, List.nil_append, List.map_cons]
    rw [show (List.replicate (xs.length + 1) Val.undef) = .undef :: List.replicate xs.length .undef from rfl]
    simp
  | x :: xs, v :: vs, acc => by
    rw [bindArgs, bindArgs_vals]
    simp [padArgs]

theorem fillStack_args (k : Nat) (args rest : List Val) :
    fillStack (args.reverse ++ rest) (rest.length + k) =
      if args.length < k ∧ ¬ rest.length + k ≤ stackSize then none else some ((padArgs k args).reverse ++ rest) := by
  unfold fillStack padArgs
  by_cases h : args.length < k
  · simp only [List.length_append, List.length_reverse]
    rw [if_pos (by omega)]
    by_cases h2 : rest.length + k ≤ stackSize
    · rw [if_pos h2, if_neg (by simp [h2])]
      rw [List.take_of_length_le (by simp; omega)]
      rw [show rest.length + k - (args.length + rest.length) = k - args.length by omega]
      simp
    · rw [if_neg h2, if_pos ⟨h, h2⟩]
  · simp only [List.length_append, List.length_reverse]
    rw [if_neg (by omega), if_neg (by simp [h])]
    rw [show args.length + rest.length - (rest.length + k) = args.length - k by omega]
    rw [show k - args.length = 0 by omega]
    simp only [List.replicate_zero, List.append_nil]
    rw [List.drop_append_of_le_length (by simp), List.drop_reverse]
    rw [show args.length - (args.length - k) = k by omega]

theorem FSim.full_limit (m : FVM W) : ∃ m', m.full = .stop m' .stackOverflow ∧ LimitStop m' .stackOverflow := by
  refine ⟨_, rfl, .inl ⟨rfl, .inl ?_⟩⟩
  simp; omega

theorem slot_mid (vm : VM W) (as rest : List Val) (v : Val) (h : vm.stack = as ++ v :: rest) : vm.slot rest.length = some v := by
  rw [slot_eq (st := as ++ v :: rest) (by simp; omega) vm h]
  simp

/-- `O_CALL` of a function of the program. -/
theorem FSim.callNative {args rest : List Val} {fv : Val} {entry k : Nat} {fr : CFrame} (h : At code p [opCALL]) (hn : nfp = rest.length)
    (hf : fv = .ref .fn entry ∨ ∃ i sl, fv = .ref .closure i ∧ cls[i]? = some (entry, sl)) (hk : code[entry]? = some (BitVec.ofNat 8 k)) (hk2 : k < 256)
    (hs : FSim F P Q code K n ⟨⟨entry + 1, (padArgs k args).reverse ++ fv :: rest, rest.length, loops, g, w, out⟩, nfp, { fr with pc := p + 1 } :: frs, cls⟩ r T) :
    FSim F P Q code K (n + 1) ⟨⟨p, args.reverse ++ fv :: rest, fp, loops, g, w, out⟩, nfp, fr :: frs, cls⟩ r T := by
  have key : FVM.step F P Q code K ⟨⟨p, args.reverse ++ fv :: rest, fp, loops, g, w, out⟩, nfp, fr :: frs, cls⟩ =
      FVM.callNative code ⟨⟨p + 1, args.reverse ++ fv :: rest, rest.length, loops, g, w, out⟩, nfp, fr :: frs, cls⟩ entry := by
    subst hn
    rw [fstep_fetch h, fdispatch_call]
    simp only [FVM.call]
    rw [slot_mid _ args.reverse rest fv rfl]
    rcases hf with rfl | ⟨i, sl, rfl, hi⟩
    · rfl
    · simp only [hi]
  have e1 : ((rest.length : Int) + 1).toNat + (BitVec.ofNat 8 k).toNat = (fv :: rest).length + k := by
    rw [BitVec.toNat_ofNat, Nat.mod_eq_of_lt (by omega)]
    simp
  simp only [FVM.callNative, hk, e1, fillStack_args] at key
  by_cases hfull : args.length < k ∧ ¬ (fv :: rest).length + k ≤ stackSize
  · rw [if_pos hfull] at key
    obtain ⟨m', h1, h2⟩ := FSim.full_limit (⟨⟨p + 1, args.reverse ++ fv :: rest, rest.length, loops, g, w, out⟩, nfp, fr :: frs, cls⟩ : FVM W)
    exact FSim.limit (key.trans h1) h2
  · rw [if_neg hfull] at key
    exact FSim.step' key hs

/-- What a call in the program asks for: one result or all of them. -/
def wants : Bool → Int
  | true => -1
  | false => 1

/-- `O_RET`. -/
theorem fstep_ret {v fv : Val} {ls rest : List Val} {fr : CFrame} {len : Nat} {m : Bool} (h : At code p [opRET, BitVec.ofNat 8 len]) (hl : ls.length = len) (h256 : len < 256)
    (hnr : fr.numReturns = wants m) :
    FVM.step F P Q code K ⟨⟨p, v :: ls ++ fv :: rest, rest.length, loops, g, w, out⟩, nfp, fr :: frs, cls⟩ =
      .next ⟨⟨fr.pc, v :: rest, fr.prevFp, dropLoops loops fr.lp, g, w, out⟩, fr.currFp, frs, cls⟩ := by
  rw [fstep_fetch h, fdispatch_ret]
  simp only [FVM.readByte]
  rw [h.tail.head]
  have e0 : (BitVec.ofNat 8 len).toNat = len := by rw [BitVec.toNat_ofNat, Nat.mod_eq_of_lt (by omega)]
  simp only [FVM.exitFrame, e0]
  rw [if_pos (by constructor <;> simp; omega)]
  simp only [Int.toNat_natCast]
  have e2 : (v :: ls ++ fv :: rest).length - (rest.length + len + 1) = 1 := by simp; omega
  have e3 : (v :: ls ++ fv :: rest).length - rest.length = 2 + len := by simp; omega
  have e4 : (v :: ls ++ fv :: rest).take 1 ++ (v :: ls ++ fv :: rest).drop (2 + len) = v :: rest := by
    subst hl
    rw [show v :: ls ++ fv :: rest = (v :: ls ++ [fv]) ++ rest by simp]
    rw [List.drop_append_of_le_length (by simp; omega), List.drop_eq_nil_of_le (by simp; omega)]
    simp
  rw [e2, e3, e4]
  cases m
  · have h0 : fr.numReturns = 1 := hnr
    rw [if_pos (by rw [h0]; decide), h0]
    have : fillStack (v :: rest) (rest.length + (1 : Int).toNat) = some (v :: rest) := by
      unfold fillStack
      rw [if_neg (by simp)]; simp
    rw [this]
  · have h0 : fr.numReturns = -1 := hnr
    rw [if_neg (by rw [h0]; decide)]

/-- `O_CALL` of a C function. -/
theorem FSim.callC {args rest : List Val} {a : Nat} {fr : CFrame} {m : Bool} {sh : Sh W} {T : Sh W → Val → FVM W → Prop} (h : At code p [opCALL])
    (hn : nfp = rest.length) (hnr : fr.numReturns = wants m) (hfw : sh.world = w) (hfo : sh.out = out) (hfg : sh.globals = g) (hlp : fr.lp = (loops.length : Int) - 1)
    (call : Clo → List Val → Sh W → FRes W Val)
    (hs : ∀ w' rs v, Q w (.ref .cfn a) args = (w', .ok rs) → (v ∈ rs ∨ v = .undef) →
      T { sh with world := w' } v ⟨⟨p + 1, v :: rest, fr.prevFp, loops, g, w', out⟩, fr.currFp, frs, cls⟩) :
    FSim F P Q code K n ⟨⟨p, args.reverse ++ .ref .cfn a :: rest, fp, loops, g, w, out⟩, nfp, fr :: frs, cls⟩
      (apply Q call m (.ref .cfn a) args sh) T := by
  subst hn
  subst hfw
  have hdl : dropLoops loops fr.lp = loops := by
    unfold dropLoops; rw [hlp]; simp
  have key : FVM.step F P Q code K ⟨⟨p, args.reverse ++ .ref .cfn a :: rest, fp, loops, g, sh.world, out⟩, rest.length, fr :: frs, cls⟩ =
      match Q sh.world (.ref .cfn a) args with
      | (w, .ok rs) =>
        if (Val.ref .cfn a :: rest).length + rs.length ≤ stackSize then
          FVM.exitFrame ⟨⟨p + 1, rs.reverse ++ .ref .cfn a :: rest, rest.length, loops, g, w, out⟩, rest.length, { fr with pc := p + 1 } :: frs, cls⟩ 0
        else FVM.full ⟨⟨p + 1, args.reverse ++ .ref .cfn a :: rest, rest.length, loops, g, w, out⟩, rest.length, { fr with pc := p + 1 } :: frs, cls⟩
      | (w, .error e) => .stop ⟨⟨p + 1, args.reverse ++ .ref .cfn a :: rest, rest.length, loops, g, w, out⟩, rest.length, { fr with pc := p + 1 } :: frs, cls⟩ e := by
    rw [fstep_fetch h, fdispatch_call]
    simp only [FVM.call]
    rw [slot_mid _ args.reverse rest _ rfl]
    simp only [FVM.callC]
    have e1 : (args.reverse ++ .ref .cfn a :: rest).length - ((rest.length : Int) + 1).toNat = args.length := by simp
    have e2 : (args.reverse ++ .ref .cfn a :: rest).take args.length = args.reverse := by
      rw [List.take_append_of_le_length (by simp), List.take_of_length_le (by simp)]
    have e3 : (args.reverse ++ .ref .cfn a :: rest).drop args.length = .ref .cfn a :: rest := by
      rw [List.drop_append_of_le_length (by simp), List.drop_eq_nil_of_le (by simp)]; rfl
    have e4 : (args.reverse ++ .ref .cfn a :: rest).length - args.length = (Val.ref .cfn a :: rest).length := by simp
    rw [e1, e2, e3, e4, List.reverse_reverse]
    rfl
  unfold apply
  rcases hq : Q sh.world (.ref .cfn a) args with ⟨w', e | rs⟩
  · rw [hq] at key
    simp only [hq, Sh.prim, FRes.bind]
    exact FSim.fail key ⟨rfl, hfo.symm, hfg.symm⟩
  · rw [hq] at key
    simp only [hq, Sh.prim, FRes.bind]
    by_cases hfull : (Val.ref .cfn a :: rest).length + rs.length ≤ stackSize
    · simp only [if_pos hfull] at key
      simp only [FVM.exitFrame] at key
      rw [if_pos (by constructor <;> simp)] at key
      simp only [Int.toNat_natCast] at key
      have e2 : (rs.reverse ++ Val.ref .cfn a :: rest).length - (rest.length + 0 + 1) = rs.length := by simp
      have e3 : (rs.reverse ++ Val.ref .cfn a :: rest).length - rest.length = rs.length + 1 := by simp; omega
      have e4 : (rs.reverse ++ Val.ref .cfn a :: rest).take rs.length ++ (rs.reverse ++ Val.ref .cfn a :: rest).drop (rs.length + 1) = rs.reverse ++ rest := by
        rw [List.take_append_of_le_length (by simp), List.take_of_length_le (by simp)]
        rw [List.append_cons, List.drop_append_of_le_length (by simp), List.drop_eq_nil_of_le (by simp)]; rfl
      rw [e2, e3, e4, hdl] at key
      cases m
      · have h0 : fr.numReturns = 1 := hnr
        rw [if_pos (by rw [h0]; decide), h0] at key
        have hfill := fillStack_args 1 rs rest
        rw [show (1 : Int).toNat = 1 from rfl, hfill, if_neg (by simp at hfull ⊢; omega)] at key
        simp only at key
        have hp : padArgs 1 rs = [rs.headD .undef] := by cases rs <;> simp [padArgs]
        rw [hp] at key
        simp only [Bool.false_eq_true, if_false]
        refine FSim.step key (FSim.done (hs w' rs _ hq ?_))
        cases rs <;> simp
      · have h0 : fr.numReturns = -1 := hnr
        rw [if_neg (by rw [h0]; decide)] at key
        simp only [if_true]
        split
        · rename_i v
          exact FSim.step key (FSim.done (hs w' [v] v hq (by simp)))
        · exact .inr trivial
    · simp only [if_neg hfull] at key
      obtain ⟨m', h1, h2⟩ := FSim.full_limit (⟨⟨p + 1, args.reverse ++ .ref .cfn a :: rest, rest.length, loops, g, w', out⟩, rest.length, { fr with pc := p + 1 } :: frs, cls⟩ : FVM W)
      exact FSim.limit (key.trans h1) h2

end
end Yasl
