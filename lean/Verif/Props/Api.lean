import Verif.Proofs.Calls
import Verif.Props.Require
import Verif.Proofs.Str
import Verif.Model.Api
set_option autoImplicit false
/-!
# C108 — the host and C functions read what is on the stack

Against the reference in yasl.h (`ApiStack.step`).  It does not hold for `YASL_popint`, `YASL_popfloat` and `YASL_popbool` on a value of another type (which stays on
the stack), for `YASL_peeknuserdata` on a value which is not userdata (undefined behaviour instead of `NULL`), and for the messages of `YASLX_checknint`,
`YASLX_checknfloat`, `YASLX_checknbool` and the check for tables, which name the type of the top of the stack instead of that of the argument.
-/
namespace Yasl

/-- The part of the stack that is in use. -/
structure ApiRep (m : Mach) (s : ApiStack) : Prop where
  live : m.Live (s.below ++ s.vals)
  fp : m.fp = (s.below.length : Int) - 1

/-- The same end. -/
def SameApi : ApiRes Mach → ApiRes ApiStack → Prop
  | .ok r m, .ok r' s => r = r' ∧ ApiRep m s
  | .overflow, .overflow => True
  | .typeError p e a, .typeError p' e' a' => p = p' ∧ e = e' ∧ a = a'
  | _, _ => False

/-- The calls for which the reference is right: a value is popped as what it is, read as userdata if it is userdata, and a failing check of `YASLX_checknint`, … is of
the newest value. -/
def ApiStack.careful (ud : Nat → Userdata) (s : ApiStack) : ApiOp → Prop
  | .popAs k => (s.vals.getLast?.all fun v => v.hasKind k) = true
  | .peeknUserdata n => (s.vals[n]?.all fun v => v.tag = .ref .userdata) = true
  | .check t n => (t ≠ .int ∧ t ≠ .float ∧ t ≠ .bool ∧ t ≠ .table) ∨ n + 1 = s.vals.length ∨ (s.vals[n]?.all fun v => v.isA ud t) = true
  | _ => True

instance (ud : Nat → Userdata) (s : ApiStack) (op : ApiOp) : Decidable (s.careful ud op) := by unfold ApiStack.careful; split <;> infer_instance

/-- All calls of a sequence are of this kind. -/
def ApiStack.carefully (ud : Nat → Userdata) (tagName : Nat → String) (s : ApiStack) : List ApiOp → Bool
  | [] => true
  | op :: ops => decide (s.careful ud op) && match s.step ud tagName op with
    | some (.ok _ s) => s.carefully ud tagName ops
    | _ => true

section
variable {m : Mach} {s : ApiStack} {v : Val}

theorem ApiRep.arg (h : ApiRep m s) {n : Nat} (hv : s.vals[n]? = some v) : m.at (m.argIndex n) = some v := by
  have hf := h.live.fits
  have hn : n < s.vals.length := by
    rcases Nat.lt_or_ge n s.vals.length with hc | hc
    · exact hc
    · rw [List.getElem?_eq_none hc] at hv; cases hv
  rw [List.length_append] at hf
  have hi : m.argIndex n = ((s.below.length + n : Nat) : Int) := by
    rw [Mach.argIndex, h.fp]
    omega
  rw [Mach.at, hi, if_pos (by unfold machSize; omega), h.live.vals (s.below.length + n) v (by rw [List.getElem?_append_right (by omega)]; simpa using hv)]

theorem ApiRep.topIndex (h : ApiRep m s) (hv : s.vals.getLast? = some v) : m.sp = m.argIndex (s.vals.length - 1) ∧ s.vals[s.vals.length - 1]? = some v := by
  have hf := h.live.fits
  have hs := h.live.sp
  rw [List.length_append] at hf hs
  have hl : s.vals.length ≠ 0 := by intro h0; rw [List.length_eq_zero_iff.1 h0] at hv; cases hv
  refine ⟨?_, by rwa [← List.getLast?_eq_getElem?]⟩
  rw [Mach.argIndex, h.fp]
  omega

theorem ApiRep.top (h : ApiRep m s) (hv : s.vals.getLast? = some v) : m.at m.sp = some v := by
  obtain ⟨h1, h2⟩ := h.topIndex hv
  rw [h1]; exact h.arg h2

theorem ApiRep.pop (h : ApiRep m s) (hv : s.vals.getLast? = some v) : ∃ m', m.pop = .ok (v, m') ∧ ApiRep m' s.drop1 := by
  obtain ⟨l, hl⟩ := List.getLast?_eq_some_iff.1 hv
  have hlive := h.live
  rw [hl, ← List.append_assoc] at hlive
  obtain ⟨h1, h2⟩ := hlive.pop
  exact ⟨_, h1, by simpa [ApiStack.drop1, hl] using h2, h.fp⟩

theorem ApiRep.push (h : ApiRep m s) (v : Val) : SameApi (m.apiPush v) (s.push v) := by
  have hf := h.live.fits
  rw [List.length_append] at hf
  rw [ApiStack.push, Mach.apiPush]
  by_cases hl : s.below.length + s.vals.length < 1024
  · rw [if_pos hl]
    obtain ⟨m', h1, h2, h3, -⟩ := h.live.push v (by simpa using hl)
    rw [h1]
    exact ⟨rfl, by simpa using h2, by rw [h3, h.fp]⟩
  · rw [if_neg hl, h.live.push_full v (by simp; omega)]
    trivial
end

theorem apiIs_eq (ud : Nat → Userdata) (t : ApiTy) (v : Val) : apiIs ud t v = v.isA ud t := by
  cases t <;> cases v <;> first | rfl | (rename_i k a; cases k <;> rfl)

theorem objTypename_eq (ud : Nat → Userdata) (v : Val) : objTypename ud v = v.typeNameOf ud := by
  cases v <;> first | rfl | (rename_i k a; cases k <;> rfl)

theorem apiRead_eq (k : ApiKind) (v : Val) : apiRead k v = v.readAs k := by cases k <;> cases v <;> rfl

theorem objIs_kind (k : ApiKind) (v : Val) : objIs k.ty v = v.hasKind k := by
  cases k <;> cases v <;> rfl

theorem cstrOf_bytes (s : List Byte) (h : 0#8 ∈ s) : cstrOf (s.map some) = .ok (beforeNul s) := by
  induction s with
  | nil => cases h
  | cons c s ih =>
    rw [List.map_cons, cstrOf]
    by_cases hc : c = 0#8
    · rw [if_pos hc]; simp [beforeNul, hc]
    · rw [if_neg hc, ih (by simpa [Ne.symm hc] using h)]
      simp [Out.bind, beforeNul, hc]

theorem apiCstr_str (b : List Byte) : apiCstr (.str b) = .cstr (some (beforeNul b)) := by
  have h : cstrOf (b.map some ++ [some 0#8]) = .ok (beforeNul b) := by
    have := cstrOf_bytes (b ++ [0#8]) (by simp)
    rw [List.map_append] at this
    rw [show b.map some ++ [some 0#8] = b.map some ++ [0#8].map some from rfl, this]
    congr 1
    simp only [beforeNul, List.takeWhile_append]
    split
    · rename_i h; simpa using ((List.takeWhile_prefix _).eq_of_length h).symm
    · rfl
  rw [apiCstr, peekCstr, h]

/-- One call. -/
theorem C108_call_partial (ud : Nat → Userdata) (tagName : Nat → String) (m : Mach) (s : ApiStack) (op : ApiOp) (r : ApiRes ApiStack) (h : ApiRep m s)
    (hr : s.step ud tagName op = some r) (hc : s.careful ud op) : SameApi (m.api ud tagName op) r := by
  have hlast : ∀ (f : Val → ApiRes ApiStack) (g : Val → ApiRes Mach), (s.vals.getLast?.map f) = some r → (∀ v, s.vals.getLast? = some v → SameApi (g v) (f v)) →
      SameApi (m.withAt m.sp g) r := by
    intro f g h1 h2
    obtain ⟨v, hv, rfl⟩ := Option.map_eq_some_iff.1 h1
    rw [Mach.withAt, h.top hv]
    exact h2 v hv
  have harg : ∀ (n : Nat) (f : Val → ApiRes ApiStack) (g : Val → ApiRes Mach), (s.vals[n]?.map f) = some r → (∀ v, s.vals[n]? = some v → SameApi (g v) (f v)) →
      SameApi (m.withAt (m.argIndex n) g) r := by
    intro n f g h1 h2
    obtain ⟨v, hv, rfl⟩ := Option.map_eq_some_iff.1 h1
    rw [Mach.withAt, h.arg hv]
    exact h2 v hv
  cases op with
  | push v => cases hr; exact h.push v
  | pushZstr mem =>
    rw [ApiStack.step] at hr
    split at hr
    · cases hr
      rename_i hm
      rw [Mach.api, cstrOf_bytes mem hm]
      exact h.push _
    · cases hr
  | pushLstr mem len =>
    rw [ApiStack.step] at hr
    split at hr
    · cases hr
      rename_i hm
      rw [Mach.api, memcpy_exact (d := 0) (src := mem.take len) (a := []) (b := List.replicate len none) (r := []) (by simp [Block.malloc]) rfl (by simp [hm])]
      dsimp only
      rw [List.nil_append, List.append_nil, mapM_id_some]
      exact h.push _
    · cases hr
  | pop =>
    obtain ⟨v, hv, rfl⟩ := Option.map_eq_some_iff.1 (show s.vals.getLast?.map _ = some r from hr)
    obtain ⟨m', h1, h2⟩ := h.pop hv
    rw [Mach.api, Mach.apiPop, h1]
    exact ⟨rfl, h2⟩
  | dup =>
    refine hlast _ _ hr fun v hv => ?_
    have := h.push v
    rw [ApiStack.push] at this ⊢
    split at this <;> rename_i hl
    · rw [if_pos hl]; exact this
    · rw [if_neg hl]; exact this
  | is t => exact hlast _ _ hr fun v hv => ⟨by rw [apiIs_eq], h⟩
  | isn t n => exact harg n _ _ hr fun v hv => ⟨by rw [apiIs_eq], h⟩
  | peek k => exact hlast _ _ hr fun v hv => ⟨apiRead_eq k v, h⟩
  | peekn k n => exact harg n _ _ hr fun v hv => ⟨apiRead_eq k v, h⟩
  | popAs k =>
    refine hlast _ _ hr fun v hv => ?_
    rw [ApiStack.careful, hv] at hc
    rw [if_pos (by rw [objIs_kind]; simpa using hc), Mach.apiPop]
    obtain ⟨m', h1, h2⟩ := h.pop hv
    rw [h1]
    exact ⟨apiRead_eq k v, h2⟩
  | peekCstr =>
    refine hlast _ _ hr fun v hv => ?_
    cases v <;> first | exact ⟨rfl, h⟩ | exact ⟨apiCstr_str _, h⟩
  | popCstr =>
    refine hlast _ _ hr fun v hv => ?_
    obtain ⟨m', h1, h2⟩ := h.pop hv
    rw [Mach.apiPop, h1]
    cases v <;> first | exact ⟨rfl, h2⟩ | exact ⟨apiCstr_str _, h2⟩
  | peeknUserdata n =>
    refine harg n _ _ hr fun v hv => ?_
    rw [ApiStack.careful, hv] at hc
    cases v <;> first | (simp [Val.tag] at hc; done) | (rename_i k a; cases k <;> first | (simp [Val.tag] at hc; done) | exact ⟨rfl, h⟩)
  | popUserdata =>
    rw [ApiStack.step] at hr
    split at hr
    · cases hr
      rename_i a hv
      obtain ⟨m', h1, h2⟩ := h.pop hv
      rw [Mach.api, Mach.apiPop, h1]
      exact ⟨rfl, h2⟩
    · cases hr
  | popUserptr =>
    rw [ApiStack.step] at hr
    split at hr
    · cases hr
      rename_i a hv
      obtain ⟨m', h1, h2⟩ := h.pop hv
      rw [Mach.api, Mach.apiPop, h1]
      exact ⟨rfl, h2⟩
    · cases hr
  | typename => exact hlast _ _ hr fun v hv => ⟨by rw [objTypename_eq], h⟩
  | ntypename n => exact harg n _ _ hr fun v hv => ⟨by rw [objTypename_eq], h⟩
  | check t n =>
    refine harg n _ _ hr fun v hv => ?_
    rw [apiIs_eq]
    by_cases hi : v.isA ud t = true
    · rw [if_pos hi, if_pos hi]
      cases t <;> cases v <;> first | (cases hi; done) | exact ⟨rfl, h⟩ | (rename_i k a; cases k <;> first | (cases hi; done) | exact ⟨rfl, h⟩)
    · rw [if_neg hi, if_neg hi]
      have hb : blamed t m n = some v := by
        have ha := h.arg hv
        rw [ApiStack.careful, hv] at hc
        rcases hc with hc | hc | hc
        · cases t <;> first | exact ha | simp at hc
        · have ht : s.vals.getLast? = some v := by rw [List.getLast?_eq_getElem?, ← hc]; simpa using hv
          have := h.top ht
          cases t <;> first | exact ha | exact this
        · exact absurd hc hi
      rw [hb]
      exact ⟨rfl, rfl, objTypename_eq ud v⟩

/-- C108: whatever calls the host or a C function makes to push, look at and pop values, they return what the reference says about the values of the function, in this
order, and the values of the callers stay as they are; for all sequences of calls without those for which the reference is wrong (`careful`).  Where there is no value
with the index, and for userdata of other types, the reference says nothing (`ApiStack.step` is `none`). -/
theorem C108_calls_partial (ud : Nat → Userdata) (tagName : Nat → String) : ∀ (ops : List ApiOp) (m : Mach) (s : ApiStack) (rs : List ApiVal) (r : ApiRes ApiStack),
    ApiRep m s → s.steps ud tagName ops = some (rs, r) → s.carefully ud tagName ops = true →
    (m.apis ud tagName ops).1 = rs ∧ SameApi (m.apis ud tagName ops).2 r
  | [], m, s, rs, r, h, hr, _ => by
    rw [ApiStack.steps] at hr
    cases hr
    exact ⟨rfl, rfl, h⟩
  | op :: ops, m, s, rs, r, h, hr, hc => by
    rw [ApiStack.steps] at hr
    rw [ApiStack.carefully, Bool.and_eq_true] at hc
    rcases hs : s.step ud tagName op with _ | r1
    · rw [hs] at hr; cases hr
    · have h1 := C108_call_partial ud tagName m s op r1 h hs (of_decide_eq_true hc.1)
      rw [hs] at hr hc
      rw [Mach.apis]
      rcases hm : m.api ud tagName op with ⟨v, m'⟩ | _ | ⟨p, e, a⟩ | _ <;> rw [hm] at h1 <;> rcases r1 with ⟨v', s'⟩ | _ | ⟨p', e', a'⟩ | _ <;>
        first | (exact h1.elim) | skip
      · obtain ⟨rfl, h1⟩ := h1
        dsimp only at hr hc
        obtain ⟨⟨rs', r'⟩, h2, h3⟩ := Option.map_eq_some_iff.1 hr
        cases h3
        obtain ⟨h4, h5⟩ := C108_calls_partial ud tagName ops m' s' rs' r' h1 h2 hc.2
        exact ⟨by dsimp only; rw [h4], h5⟩
      · cases hr; exact ⟨rfl, trivial⟩
      · cases hr; exact ⟨rfl, h1⟩

/-- C108: what is pushed is read back, as a bool, float or int, and the stack is as before. -/
theorem C108_round_trip (ud : Nat → Userdata) (tagName : Nat → String) (m : Mach) (s : ApiStack) (h : ApiRep m s) (k : ApiKind) (v : Val) (hk : v.hasKind k = true)
    (hroom : s.below.length + s.vals.length < 1024) :
    ∃ m', (m.apis ud tagName [.push v, .peek k, .popAs k]) = ([.none, v.readAs k, v.readAs k], .ok .none m') ∧ ApiRep m' s := by
  have hs : s.steps ud tagName [.push v, .peek k, .popAs k] = some ([.none, v.readAs k, v.readAs k], .ok .none s) := by
    simp [ApiStack.steps, ApiStack.step, ApiStack.push, hroom, ApiStack.drop1]
  have hc : s.carefully ud tagName [.push v, .peek k, .popAs k] = true := by
    simp [ApiStack.carefully, ApiStack.step, ApiStack.push, hroom, ApiStack.careful, hk]
    exact ⟨decide_eq_true trivial, decide_eq_true trivial⟩
  obtain ⟨h1, h2⟩ := C108_calls_partial ud tagName _ m s _ _ h hs hc
  rcases hr : m.apis ud tagName [.push v, .peek k, .popAs k] with ⟨rs, r⟩
  rw [hr] at h1 h2
  dsimp only at h1 h2
  subst h1
  rcases r with ⟨v', m'⟩ | _ | _ | _ <;> first | exact h2.elim | skip
  obtain ⟨rfl, h2⟩ := h2
  exact ⟨m', rfl, h2⟩

/-- C108: a C string that is pushed is read back; a block with a NUL in it is pushed as a whole, but read back as a C string only up to the NUL. -/
theorem C108_strings (ud : Nat → Userdata) (tagName : Nat → String) (m : Mach) (s : ApiStack) (h : ApiRep m s) (mem : List Byte) (len : Nat) (hlen : len ≤ mem.length)
    (hroom : s.below.length + s.vals.length < 1024) :
    ∃ m', (m.apis ud tagName [.pushLstr mem len, .popCstr]) = ([.none, .cstr (some (beforeNul (mem.take len)))], .ok .none m') ∧ ApiRep m' s := by
  have hs : s.steps ud tagName [.pushLstr mem len, .popCstr] = some ([.none, .cstr (some (beforeNul (mem.take len)))], .ok .none s) := by
    simp [ApiStack.steps, ApiStack.step, ApiStack.push, hroom, ApiStack.drop1, hlen]
  have hc : s.carefully ud tagName [.pushLstr mem len, .popCstr] = true := by
    simp [ApiStack.carefully, ApiStack.step, ApiStack.push, hroom, ApiStack.careful, hlen]
    exact ⟨decide_eq_true trivial, decide_eq_true trivial⟩
  obtain ⟨h1, h2⟩ := C108_calls_partial ud tagName _ m s _ _ h hs hc
  rcases hr : m.apis ud tagName [.pushLstr mem len, .popCstr] with ⟨rs, r⟩
  rw [hr] at h1 h2
  dsimp only at h1 h2
  subst h1
  rcases r with ⟨v', m'⟩ | _ | _ | _ <;> first | exact h2.elim | skip
  obtain ⟨rfl, h2⟩ := h2
  exact ⟨m', rfl, h2⟩

/-- C108 fails for `YASL_popint`, `YASL_popfloat`, `YASL_popbool`: a value of another type is not removed (yasl.h: "Otherwise returns 0. Removes the top of the stack."), so
a host that pops what a program left gets 0 for ever. -/
theorem C108_pop_counterexample (ud : Nat → Userdata) (tagName : Nat → String) (m : Mach) (s : ApiStack) (h : ApiRep m s) (k : ApiKind) (v : Val)
    (hv : s.vals.getLast? = some v) (hk : v.hasKind k = false) :
    m.api ud tagName (.popAs k) = .ok (v.readAs k) m ∧ s.step ud tagName (.popAs k) = some (.ok (v.readAs k) s.drop1) ∧ ¬ ApiRep m s.drop1 := by
  refine ⟨?_, by simp [ApiStack.step, hv], fun h' => ?_⟩
  · rw [Mach.api, Mach.withAt, h.top hv]
    dsimp only
    rw [if_neg (by rw [objIs_kind, hk]; simp), apiRead_eq]
  · have h1 := h.live.sp
    have h2 := h'.live.sp
    have h3 : s.vals.length ≠ 0 := by intro h0; rw [List.length_eq_zero_iff.1 h0] at hv; cases hv
    simp [ApiStack.drop1] at h1 h2
    omega

/-- C108 fails for `YASL_peeknuserdata` on a value which is not an object: undefined behaviour (yasl.h: "Otherwise returns NULL"). -/
theorem C108_userdata_counterexample (ud : Nat → Userdata) (tagName : Nat → String) (m : Mach) (s : ApiStack) (h : ApiRep m s) (n : Nat) (i : BitVec 64)
    (hv : s.vals[n]? = some (.int i)) : m.api ud tagName (.peeknUserdata n) = .ub ∧ s.step ud tagName (.peeknUserdata n) = some (.ok (.ptr 0) s) := by
  refine ⟨?_, by simp [ApiStack.step, hv]⟩
  rw [Mach.api, Mach.withAt, h.arg hv]
  rfl

/-- C108 fails for the messages of `YASLX_checknint`, `YASLX_checknfloat`, `YASLX_checknbool` and the check for tables: they name the type of the newest value.  For example
`"x"` and 5 as arguments give "expected arg in position 0 to be of type int, got arg of type int". -/
theorem C108_message_counterexample (ud : Nat → Userdata) (tagName : Nat → String) (m : Mach) (s : ApiStack) (h : ApiRep m s) (n : Nat) (v top : Val)
    (hv : s.vals[n]? = some v) (ht : s.vals.getLast? = some top) (t : ApiTy) (hm : t = .int ∨ t = .float ∨ t = .bool ∨ t = .table) (hi : v.isA ud t = false) :
    m.api ud tagName (.check t n) = .typeError n (t.typeName tagName) (top.typeNameOf ud) ∧
    s.step ud tagName (.check t n) = some (.typeError n (t.typeName tagName) (v.typeNameOf ud)) := by
  refine ⟨?_, by simp [ApiStack.step, hv, hi]⟩
  rw [Mach.api, Mach.withAt, h.arg hv]
  dsimp only
  rw [apiIs_eq, hi]
  have hb : blamed t m n = some top := by rcases hm with rfl | rfl | rfl | rfl <;> exact h.top ht
  simp [hb, objTypename_eq]

/-- A machine in a C function that was called with these arguments (in the slots 1, 2, …). -/
def apiDemo (args : List Val) : Mach := ⟨fun i => if i = 0 then .ref .cfn 7 else args.getD (i.toNat - 1) .end_, args.length, 0, 0, [], [], 0⟩

theorem apiDemo_rep (args : List Val) (h : args.length < 1024) : ApiRep (apiDemo args) ⟨[.ref .cfn 7], args⟩ := by
  refine ⟨⟨by simp [apiDemo], by simp; omega, fun i v hi => ?_⟩, rfl⟩
  cases i with
  | zero => simpa [apiDemo] using hi
  | succ i =>
    simp only [List.singleton_append, List.getElem?_cons_succ] at hi
    simp only [apiDemo]
    rw [if_neg (by omega), List.getD_eq_getElem?_getD, show ((i + 1 : Nat) : Int).toNat - 1 = i by omega, hi]
    rfl

/-- a C function called with "ab" and 5 looks at its arguments, pushes true and reads it -/
def apiDemoOps : List ApiOp := [.isn .str 0, .peekn .int 1, .push (.bool true), .peek .int, .popAs .bool, .ntypename 0, .check .int 1, .check .undef 0]

example : ApiStack.steps (fun _ => ⟨0, "", 0⟩) (fun _ => "") ⟨[.ref .cfn 7], [.str [97, 98], .int 5]⟩ apiDemoOps =
    some ([.bool true, .int 5, .none, .int 0, .bool true, .name "str", .int 5], .typeError 0 "undef" "str") ∧
  ApiStack.carefully (fun _ => ⟨0, "", 0⟩) (fun _ => "") ⟨[.ref .cfn 7], [.str [97, 98], .int 5]⟩ apiDemoOps = true := ⟨rfl, by decide⟩

/-- the message is wrong -/
example : (apiDemo [.str [120], .int 5]).api (fun _ => ⟨0, "", 0⟩) (fun _ => "") (.check .int 0) = .typeError 0 "int" "int" := rfl

end Yasl
