import Verif.Model.Env
import Verif.Proofs.CompileStmt
set_option autoImplicit false
namespace Yasl

/-- The value of a variable in the compiler's tables. -/
def encVar (c : Bool) (n : Nat) : BitVec 64 := if c then ~~~BitVec.ofNat 64 n else BitVec.ofNat 64 n

/-- A list of variables, newest first, and the entries of the tables. -/
def RepFlat : List SVar → Scope → Prop
  | [], [] => True
  | v :: vs, (x, z) :: sc => v.name = x ∧ z = encVar v.const_ vs.length ∧ RepFlat vs sc
  | _, _ => False

theorem RepFlat.length : ∀ {vs : List SVar} {sc : Scope}, RepFlat vs sc → sc.length = vs.length
  | [], [], _ => rfl
  | v :: vs, (x, z) :: sc, h => by simp [RepFlat.length h.2.2]
  | [], _ :: _, h => by simp [RepFlat] at h
  | _ :: _, [], h => by simp [RepFlat] at h

theorem RepFlat.get (x : Name) : ∀ {vs : List SVar} {sc : Scope}, RepFlat vs sc →
    sc.get x = (findVar x vs).map fun p => encVar p.1.const_ p.2
  | [], [], _ => rfl
  | v :: vs, (y, z) :: sc, h => by
    obtain ⟨rfl, rfl, h⟩ := h
    have ih := RepFlat.get x h
    by_cases hx : v.name = x
    · simp [Scope.get, findVar, hx]
    · simp only [Scope.get, List.find?_cons, beq_false_of_ne hx, findVar, if_neg hx] at ih ⊢
      exact ih
  | [], _ :: _, h => by simp [RepFlat] at h
  | _ :: _, [], h => by simp [RepFlat] at h

theorem findVar_lt {x : Name} : ∀ {vs : List SVar} {v : SVar} {n : Nat}, findVar x vs = some (v, n) → n < vs.length ∧ v.name = x
  | u :: vs, v, n, h => by
    unfold findVar at h
    split at h
    · rename_i hu; simp at h; obtain ⟨rfl, rfl⟩ := h; simp [hu]
    · have := findVar_lt h; exact ⟨by simp; omega, this.2⟩

/-- The blocks of a function and the compiler's scopes. -/
def RepF (f : List (List SVar)) (scs : List Scope) : Prop :=
  scs.map List.length = f.map List.length ∧ RepFlat f.flatten scs.flatten ∧ f.flatten.length ≤ 255

theorem RepF.get {f : List (List SVar)} {scs : List Scope} (h : RepF f scs) (x : Name) :
    scopeGet scs x = (findVar x f.flatten).map fun p => encVar p.1.const_ p.2 := by
  rw [scopeGet_flatten]; exact h.2.1.get x

theorem isConst_encVar {c : Bool} {n : Nat} (h : n < 2 ^ 63) : isConst (encVar c n) = c := by
  cases c
  · simp only [encVar]
    rw [isConst_iff]; simp
    rw [BitVec.msb_eq_false_iff_two_mul_lt]; simp; omega
  · simp only [encVar, if_true]
    rw [isConst_iff]; simp
    rw [BitVec.msb_eq_false_iff_two_mul_lt]; simp; omega

theorem getIndex_encVar {c : Bool} {n : Nat} (h : n < 2 ^ 63) : getIndex (encVar c n) = BitVec.ofNat 64 n := by
  have := isConst_encVar (c := c) h
  unfold getIndex
  rw [this]
  cases c <;> simp [encVar]


/-! ## Tables of upvalues -/

theorem upGet_put_self {t : List (Name × Int)} {x : Name} {v : Int} (h : upGet t x = none) : upGet (upPut t x v) x = some v := by
  rw [upPut, if_pos h]; simp [upGet]

theorem upGet_put_ne {t : List (Name × Int)} {x y : Name} {v : Int} (h : upGet t x = none) (hy : y ≠ x) : upGet (upPut t x v) y = upGet t y := by
  rw [upPut, if_pos h]; simp [upGet, List.find?_cons, beq_false_of_ne (Ne.symm hy)]

theorem upPut_new {t : List (Name × Int)} {x : Name} {v : Int} (h : upGet t x = none) : upPut t x v = (x, v) :: t := by simp [upPut, h]

/-- The indices are numbers from 0, given in the order of insertion, and no name has two. -/
def IdxOk : List (Name × Int) → Prop
  | [] => True
  | (x, i) :: t => i = t.length ∧ upGet t x = none ∧ IdxOk t

theorem IdxOk.lt : ∀ {t : List (Name × Int)}, IdxOk t → ∀ p ∈ t, 0 ≤ p.2 ∧ p.2 < t.length
  | (x, i) :: t, h, p, hp => by
    obtain ⟨rfl, _, h⟩ := h
    rcases List.mem_cons.1 hp with rfl | hp
    · simp
    · have := h.lt p hp; simp; omega

theorem upGet_mem {t : List (Name × Int)} {x : Name} {i : Int} (h : upGet t x = some i) : (x, i) ∈ t := by
  unfold upGet at h
  simp only [Option.map_eq_some_iff] at h
  obtain ⟨⟨y, j⟩, h1, rfl⟩ := h
  have := List.find?_some h1
  simp at this; subst this
  exact List.mem_of_find?_eq_some h1

theorem IdxOk.nonneg {t : List (Name × Int)} (h : IdxOk t) {x : Name} {i : Int} (hx : upGet t x = some i) : 0 ≤ i := (h.lt _ (upGet_mem hx)).1

theorem IdxOk.find : ∀ {t : List (Name × Int)}, IdxOk t → ∀ {x : Name} {i : Int}, upGet t x = some i → t.find? (fun p => p.2 == i) = some (x, i)
  | (y, j) :: t, h, x, i, hx => by
    obtain ⟨rfl, hy, h⟩ := h
    by_cases hyx : y = x
    · subst hyx
      simp [upGet] at hx
      subst hx; simp
    · have hx' : upGet t x = some i := by simpa [upGet, List.find?_cons, beq_false_of_ne hyx] using hx
      have := (h.lt _ (upGet_mem hx')).2
      simp only [] at this
      have hne : ((t.length : Int) == i) = false := by simp; omega
      simp only [List.find?_cons, hne]
      exact h.find hx'

theorem IdxOk.find_inv : ∀ {t : List (Name × Int)}, IdxOk t → ∀ {x : Name} {i j : Int}, t.find? (fun p => p.2 == i) = some (x, j) → upGet t x = some i
  | (y, k) :: t, h, x, i, j, hx => by
    obtain ⟨rfl, hy, h⟩ := h
    simp only [List.find?_cons] at hx
    split at hx
    · rename_i hk; simp at hk hx
      obtain ⟨rfl, rfl⟩ := hx
      simp [upGet, hk]
    · have := h.find_inv hx
      by_cases hyx : y = x
      · subst hyx; rw [hy] at this; simp at this
      · simpa [upGet, List.find?_cons, beq_false_of_ne hyx] using this

/-- What the entry of an upvalue says about the functions around. -/
def UpGood (stack : List Scope) (ps : List FnEnv) (x : Name) (value : Int) : Prop :=
  match ps with
  | [] => ∃ v, scopeGet stack x = some v ∧ value = (getIndex v).toInt
  | p :: _ => (∃ v, scopeGet p.scopes x = some v ∧ value = (getIndex v).toInt) ∨
      (scopeGet p.scopes x = none ∧ ∃ j, upGet p.upIdx x = some j ∧ value = lnot j)

/-- The tables of upvalues of all the functions are right. -/
def UpOk (stack : List Scope) : List FnEnv → Prop
  | [] => True
  | e :: ps => IdxOk e.upIdx ∧ (∀ x, upGet e.upVal x = none ↔ upGet e.upIdx x = none) ∧
      (∀ x value, upGet e.upVal x = some value → UpGood stack ps x value) ∧ UpOk stack ps

/-- A function later on: more upvalues. -/
structure FExt (e e' : FnEnv) : Prop where
  scopes : e'.scopes = e.scopes
  idx : ∀ x i, upGet e.upIdx x = some i → upGet e'.upIdx x = some i
  val : ∀ x i, upGet e.upVal x = some i → upGet e'.upVal x = some i

theorem FExt.refl (e : FnEnv) : FExt e e := ⟨rfl, fun _ _ h => h, fun _ _ h => h⟩
theorem FExt.trans {a b c : FnEnv} (h : FExt a b) (h' : FExt b c) : FExt a c :=
  ⟨h'.scopes.trans h.scopes, fun x i hx => h'.idx x i (h.idx x i hx), fun x i hx => h'.val x i (h.val x i hx)⟩

theorem forall₂_ext_refl : ∀ l : List FnEnv, List.Forall₂ FExt l l
  | [] => .nil
  | e :: l => .cons (FExt.refl e) (forall₂_ext_refl l)

theorem forall₂_ext_trans : ∀ {a b c : List FnEnv}, List.Forall₂ FExt a b → List.Forall₂ FExt b c → List.Forall₂ FExt a c
  | _, _, _, .nil, .nil => .nil
  | _, _, _, .cons h t, .cons h' t' => .cons (h.trans h') (forall₂_ext_trans t t')

theorem UpGood.ext {stack : List Scope} {ps ps' : List FnEnv} (h : List.Forall₂ FExt ps ps') {x : Name} {v : Int} (hg : UpGood stack ps x v) :
    UpGood stack ps' x v := by
  cases h with
  | nil => exact hg
  | cons h _ =>
    simp only [UpGood] at hg ⊢
    rw [h.scopes]
    rcases hg with hg | ⟨h1, j, hj, rfl⟩
    · exact Or.inl hg
    · exact Or.inr ⟨h1, j, h.idx x j hj, rfl⟩

theorem FnEnv.addUp_ext {e : FnEnv} {x : Name} {v : Int} (h1 : upGet e.upIdx x = none) (h2 : upGet e.upVal x = none) : FExt e (e.addUp x v) := by
  refine ⟨rfl, fun y i hy => ?_, fun y i hy => ?_⟩
  · by_cases hyx : y = x
    · subst hyx; rw [h1] at hy; simp at hy
    · simp only [FnEnv.addUp]; rw [upGet_put_ne h1 hyx]; exact hy
  · by_cases hyx : y = x
    · subst hyx; rw [h2] at hy; simp at hy
    · simp only [FnEnv.addUp]; rw [upGet_put_ne h2 hyx]; exact hy

theorem FnEnv.addUp_ok {stack : List Scope} {e : FnEnv} {ps ps' : List FnEnv} {x : Name} {v : Int} (h : UpOk stack (e :: ps)) (h1 : upGet e.upIdx x = none)
    (he : List.Forall₂ FExt ps ps') (hps : UpOk stack ps') (hg : UpGood stack ps' x v) : UpOk stack (e.addUp x v :: ps') := by
  obtain ⟨ha, hb, hc, _⟩ := h
  have h2 := (hb x).2 h1
  refine ⟨?_, fun y => ?_, fun y value hy => ?_, hps⟩
  · simp only [FnEnv.addUp]; rw [upPut_new h1]; exact ⟨rfl, h1, ha⟩
  · by_cases hyx : y = x
    · subst hyx; simp only [FnEnv.addUp]; rw [upGet_put_self h1, upGet_put_self h2]; simp
    · simp only [FnEnv.addUp]; rw [upGet_put_ne h1 hyx, upGet_put_ne h2 hyx]; exact hb y
  · by_cases hyx : y = x
    · subst hyx; simp only [FnEnv.addUp] at hy; rw [upGet_put_self h2] at hy; simp at hy; subst hy; exact hg
    · simp only [FnEnv.addUp] at hy; rw [upGet_put_ne h2 hyx] at hy; exact (hc y value hy).ext he

theorem UpOk.flags {stack : List Scope} {e e' : FnEnv} {ps : List FnEnv} (h : UpOk stack (e :: ps)) (h1 : e'.upIdx = e.upIdx) (h2 : e'.upVal = e.upVal) :
    UpOk stack (e' :: ps) := by
  obtain ⟨ha, hb, hc, hd⟩ := h
  exact ⟨h1 ▸ ha, by rw [h1, h2]; exact hb, by rw [h2]; exact hc, hd⟩

theorem nearestValue_ext {x : Name} : ∀ {ps ps' : List FnEnv}, List.Forall₂ FExt ps ps' → nearestValue x ps' = nearestValue x ps
  | _, _, .nil => rfl
  | _, _, .cons h t => by simp only [nearestValue, h.scopes, nearestValue_ext t]

theorem envAddUpval_cons (stack : List Scope) (x : Name) (e p : FnEnv) (qs : List FnEnv) : envAddUpval stack x (e :: p :: qs) =
    (if !p.contains x && (upGet p.upIdx x).isNone then (envAddUpval stack x (p :: qs)).map Prod.snd else some (p :: qs)).bind fun ps' =>
      match ps' with
      | [] => none
      | p' :: qs => match scopeGet p'.scopes x with
        | some v => some ((e.upIdx.length : Int), e.addUp x (getIndex v).toInt :: { p' with usedinclosure := true } :: qs)
        | none => match upGet p'.upIdx x with
          | some v => some ((e.upIdx.length : Int), e.addUp x (if v < 0 then v else lnot v) :: p' :: qs)
          | none => none := rfl

theorem envAddUpval_spec {stack : List Scope} {x : Name} : ∀ (ps : List FnEnv) (e : FnEnv), UpOk stack (e :: ps) → upGet e.upIdx x = none →
    (nearestValue x ps ≠ none ∨ scopeGet stack x ≠ none) →
    ∃ i e' ps', envAddUpval stack x (e :: ps) = some (i, e' :: ps') ∧ UpOk stack (e' :: ps') ∧ FExt e e' ∧ List.Forall₂ FExt ps ps' ∧ upGet e'.upIdx x = some i
  | [], e, h, h1, hr => by
    obtain ⟨v, hv⟩ : ∃ v, scopeGet stack x = some v := by
      rcases hr with hr | hr
      · simp [nearestValue] at hr
      · exact Option.ne_none_iff_exists'.1 hr
    refine ⟨e.upIdx.length, e.addUp x (getIndex v).toInt, [], by simp [envAddUpval, hv], ?_, FnEnv.addUp_ext h1 ((h.2.1 x).2 h1), .nil, ?_⟩
    · exact FnEnv.addUp_ok h h1 .nil trivial ⟨v, hv, rfl⟩
    · simp only [FnEnv.addUp]; exact upGet_put_self h1
  | p :: qs, e, h, h1, hr => by
    have hp : UpOk stack (p :: qs) := h.2.2.2
    obtain ⟨p1, qs1, hstep, hok1, hext1, hextq, hhas⟩ : ∃ p1 qs1, (if !p.contains x && (upGet p.upIdx x).isNone then (envAddUpval stack x (p :: qs)).map Prod.snd else some (p :: qs)) =
        some (p1 :: qs1) ∧ UpOk stack (p1 :: qs1) ∧ FExt p p1 ∧ List.Forall₂ FExt qs qs1 ∧ (scopeGet p.scopes x ≠ none ∨ ∃ i, upGet p1.upIdx x = some i) := by
      by_cases hc : p.contains x = true
      · exact ⟨p, qs, by simp [hc], hp, FExt.refl p, forall₂_ext_refl qs, Or.inl (by simpa [FnEnv.contains, Option.isSome_iff_ne_none] using hc)⟩
      · cases hu : upGet p.upIdx x with
        | some i => exact ⟨p, qs, by simp, hp, FExt.refl p, forall₂_ext_refl qs, Or.inr ⟨i, hu⟩⟩
        | none =>
          have hn : scopeGet p.scopes x = none := by simpa [FnEnv.contains] using hc
          obtain ⟨i, p1, qs1, he, hok, hx1, hx2, hi⟩ := envAddUpval_spec qs p hp hu (by simpa [nearestValue, hn] using hr)
          exact ⟨p1, qs1, by simp [hc, he], hok, hx1, hx2, Or.inr ⟨i, hi⟩⟩
    have hextp : List.Forall₂ FExt (p :: qs) (p1 :: qs1) := .cons hext1 hextq
    cases hv : scopeGet p1.scopes x with
    | some v =>
      let p2 : FnEnv := { p1 with usedinclosure := true }
      have hext2 : List.Forall₂ FExt (p :: qs) (p2 :: qs1) := .cons ⟨hext1.scopes, hext1.idx, hext1.val⟩ hextq
      refine ⟨e.upIdx.length, e.addUp x (getIndex v).toInt, p2 :: qs1, ?_, ?_, FnEnv.addUp_ext h1 ((h.2.1 x).2 h1), hext2, ?_⟩
      · rw [envAddUpval_cons, hstep]; simp [hv, p2]
      · exact FnEnv.addUp_ok h h1 hext2 (hok1.flags rfl rfl) (Or.inl ⟨v, hv, rfl⟩)
      · simp only [FnEnv.addUp]; exact upGet_put_self h1
    | none =>
      obtain ⟨j, hj⟩ : ∃ i, upGet p1.upIdx x = some i := by
        rcases hhas with hh | hh
        · rw [hext1.scopes] at hv; exact absurd hv hh
        · exact hh
      have hj0 := hok1.1.nonneg hj
      refine ⟨e.upIdx.length, e.addUp x (lnot j), p1 :: qs1, ?_, ?_, FnEnv.addUp_ext h1 ((h.2.1 x).2 h1), hextp, ?_⟩
      · rw [envAddUpval_cons, hstep]; simp [hv, hj, not_lt.2 hj0]
      · exact FnEnv.addUp_ok h h1 hextp hok1 (Or.inr ⟨hv, j, hj, rfl⟩)
      · simp only [FnEnv.addUp]; exact upGet_put_self h1


/-! ## The compiler's tables and the visible names -/

/-- Functions being compiled, the scopes of the file, and the visible variables. -/
def RepP (stack : List Scope) : List FnEnv → Visible → Prop
  | [], [f] => RepF f stack
  | e :: ps, f :: fs => RepF f e.scopes ∧ f ≠ [] ∧ RepP stack ps fs
  | _, _ => False

theorem RepP.length {stack : List Scope} : ∀ {ps : List FnEnv} {vis : Visible}, RepP stack ps vis → vis.length = ps.length + 1
  | [], [f], _ => rfl
  | e :: ps, f :: fs, h => by simp [RepP.length h.2.2]
  | [], [], h => by simp [RepP] at h
  | [], _ :: _ :: _, h => by simp [RepP] at h
  | _ :: _, [], h => by simp [RepP] at h

/-- The value found for a name outside of the innermost function. -/
def resolveVal (stack : List Scope) (ps : List FnEnv) (x : Name) : Option (BitVec 64) := (nearestValue x ps).or (scopeGet stack x)

theorem RepP.resolve {stack : List Scope} (x : Name) : ∀ {ps : List FnEnv} {vis : Visible}, RepP stack ps vis →
    resolveVal stack ps x = (vis.lookup x).map fun p => encVar p.1.const_ p.2.2
  | [], [f], h => by
    have := RepF.get h x
    simp only [resolveVal, nearestValue, Option.none_or, Visible.lookup, this]
    cases findVar x f.flatten <;> rfl
  | e :: ps, f :: fs, h => by
    have h1 := RepF.get h.1 x
    have h2 := RepP.resolve x h.2.2
    simp only [resolveVal, nearestValue, Visible.lookup] at h2 ⊢
    rw [h1]
    cases findVar x f.flatten with
    | none => simpa using h2
    | some p => rfl
  | [], [], h => by simp [RepP] at h
  | [], _ :: _ :: _, h => by simp [RepP] at h
  | _ :: _, [], h => by simp [RepP] at h

theorem toInt_ofNat_lt {n : Nat} (h : n < 2 ^ 63) : (BitVec.ofNat 64 n).toInt = n := by
  rw [BitVec.toInt_eq_toNat_of_lt] <;> simp <;> omega

theorem UpOk.idx_val {stack : List Scope} {e : FnEnv} {ps : List FnEnv} (h : UpOk stack (e :: ps)) {x : Name} {i : Int} (hx : upGet e.upIdx x = some i) :
    ∃ v, upGet e.upVal x = some v := by
  cases hv : upGet e.upVal x with
  | none => rw [(h.2.1 x).1 hv] at hx; simp at hx
  | some v => exact ⟨v, rfl⟩

theorem RepF.slot {f : List (List SVar)} {scs : List Scope} (h : RepF f scs) {x : Name} {v : BitVec 64} (hv : scopeGet scs x = some v) :
    ∃ sv n, findVar x f.flatten = some (sv, n) ∧ n < 255 ∧ v = encVar sv.const_ n ∧ getIndex v = BitVec.ofNat 64 n ∧ isConst v = sv.const_ := by
  rw [h.get x] at hv
  simp only [Option.map_eq_some_iff] at hv
  obtain ⟨⟨sv, n⟩, h1, rfl⟩ := hv
  have hn := (findVar_lt h1).1
  have := h.2.2
  exact ⟨sv, n, h1, by omega, rfl, getIndex_encVar (by simp only []; omega), isConst_encVar (by simp only []; omega)⟩

theorem upval_target {stack : List Scope} {x : Name} : ∀ (ps : List FnEnv) (e : FnEnv) (vis : Visible) (i : Int), UpOk stack (e :: ps) → RepP stack ps vis →
    upGet e.upIdx x = some i → ∃ v d n, vis.lookup x = some (v, d, n) ∧ upvalTarget (e :: ps) i = some (d, n)
  | [], e, [f], i, h, hr, hi => by
    obtain ⟨val, hval⟩ := h.idx_val hi
    obtain ⟨v, hv, rfl⟩ := h.2.2.1 x val hval
    obtain ⟨sv, n, h1, h2, h3, h4, h5⟩ := RepF.slot hr hv
    refine ⟨sv, 0, n, by simp [Visible.lookup, h1], ?_⟩
    have : (getIndex v).toInt = n := by rw [h4, toInt_ofNat_lt (by omega)]
    simp only [upvalTarget, h.1.find hi, hval, this]
    simp
  | p :: qs, e, f :: fs, i, h, hr, hi => by
    obtain ⟨val, hval⟩ := h.idx_val hi
    have hlen := RepP.length hr.2.2
    rcases h.2.2.1 x val hval with ⟨v, hv, rfl⟩ | ⟨hn, j, hj, rfl⟩
    · obtain ⟨sv, n, h1, h2, h3, h4, h5⟩ := RepF.slot hr.1 hv
      refine ⟨sv, fs.length, n, by simp [Visible.lookup, h1], ?_⟩
      have : (getIndex v).toInt = n := by rw [h4, toInt_ofNat_lt (by omega)]
      simp only [upvalTarget, h.1.find hi, hval, this]
      simp [hlen]
    · obtain ⟨sv, d, n, h1, h2⟩ := upval_target qs p fs j h.2.2.2 hr.2.2 hj
      have hj0 := h.2.2.2.1.nonneg hj
      have hf : findVar x f.flatten = none := by
        have := RepF.get hr.1 x
        rw [hn] at this
        cases hc : findVar x f.flatten with
        | none => rfl
        | some q => rw [hc] at this; simp at this
      refine ⟨sv, d, n, by simp [Visible.lookup, hf, h1], ?_⟩
      have hneg : lnot j < 0 := by unfold lnot; omega
      have hll : lnot (lnot j) = j := by unfold lnot; omega
      rw [upvalTarget, h.1.find hi]
      simp only [hval, if_pos hneg, hll]
      exact h2
  | [], _, [], _, _, h, _ => by simp [RepP] at h
  | [], _, _ :: _ :: _, _, _, h, _ => by simp [RepP] at h
  | _ :: _, _, [], _, _, h, _ => by simp [RepP] at h

/-- The compiler's state about names is right. -/
structure NInv (s : NState) (n : Names) : Prop where
  rep : RepP s.stack s.params n.vis
  up : UpOk s.stack s.params
  glob : ∀ x, (s.globals.get x).map isConst = n.globals x

theorem RepP.flags {stack : List Scope} : ∀ {ps ps' : List FnEnv} {vis : Visible}, List.Forall₂ FExt ps ps' → RepP stack ps vis → RepP stack ps' vis
  | [], _, _, .nil, h => h
  | e :: ps, _, f :: fs, .cons h1 h2, h => ⟨h1.scopes ▸ h.1, h.2.1, RepP.flags h2 h.2.2⟩
  | _ :: _, _, [], _, h => by simp [RepP] at h

theorem markNearest_ext (x : Name) : ∀ ps : List FnEnv, List.Forall₂ FExt ps (markNearest x ps)
  | [] => .nil
  | e :: ps => by
    unfold markNearest
    split
    · exact .cons ⟨rfl, fun _ _ h => h, fun _ _ h => h⟩ (forall₂_ext_refl ps)
    · exact .cons (FExt.refl e) (markNearest_ext x ps)

theorem markNearest_up (x : Name) {stack : List Scope} : ∀ {ps : List FnEnv}, UpOk stack ps → UpOk stack (markNearest x ps)
  | [], _ => trivial
  | e :: ps, h => by
    unfold markNearest
    split
    · exact h.flags rfl rfl
    · exact ⟨h.1, h.2.1, fun y v hy => (h.2.2.1 y v hy).ext (markNearest_ext x ps), markNearest_up x h.2.2.2⟩

theorem upvalRef_spec {s : NState} {e : FnEnv} {ps : List FnEnv} {x : Name} (hp : s.params = e :: ps) (h : UpOk s.stack s.params)
    (hr : resolveVal s.stack ps x ≠ none) :
    ∃ i e' ps', s.upvalRef x = (.upval i, { s with params := e' :: ps' }) ∧ UpOk s.stack (e' :: ps') ∧ FExt e e' ∧ List.Forall₂ FExt ps ps' ∧
      upGet e'.upIdx x = some i := by
  rw [hp] at h
  have h' : UpOk s.stack ({ e with isclosure := true } :: ps) := h.flags rfl rfl
  cases hi : upGet e.upIdx x with
  | some i =>
    refine ⟨i, { e with isclosure := true }, ps, ?_, h', ⟨rfl, fun _ _ h => h, fun _ _ h => h⟩, forall₂_ext_refl ps, hi⟩
    simp [NState.upvalRef, hp, markClosure, envResolve, hi]
  | none =>
    obtain ⟨i, e', ps', h1, h2, h3, h4, h5⟩ := envAddUpval_spec (x := x) ps _ h' hi (by
      simp only [resolveVal] at hr
      cases hn : nearestValue x ps with
      | none => rw [hn] at hr; exact Or.inr (by simpa using hr)
      | some v => exact Or.inl (by simp))
    refine ⟨i, e', ps', ?_, h2, ⟨h3.scopes, h3.idx, h3.val⟩, h4, h5⟩
    simp [NState.upvalRef, hp, markClosure, envResolve, hi, h1]


theorem lookup_lt {x : Name} : ∀ {vis : Visible} {v : SVar} {d k : Nat}, vis.lookup x = some (v, d, k) → d < vis.length
  | f :: fs, v, d, k, h => by
    unfold Visible.lookup at h
    split at h
    · simp at h; obtain ⟨_, rfl, _⟩ := h; simp
    · have := lookup_lt h; simp; omega

theorem upref_spec {s s1 : NState} {n : Names} {e : FnEnv} {ps : List FnEnv} {f : List (List SVar)} {fs : Visible} {x : Name} (h : NInv s n)
    (hp : s.params = e :: ps) (hvis : n.vis = f :: fs) (hn : scopeGet e.scopes x = none) (hr : resolveVal s.stack ps x ≠ none)
    (h1 : s1 = s ∨ s1 = { s with params := markNearest x s.params }) :
    ∃ i s', s1.upvalRef x = (.upval i, s') ∧ NInv s' n ∧ s'.ok = s.ok ∧ List.Forall₂ FExt s.params s'.params ∧ s'.stack = s.stack ∧ s'.globals = s.globals ∧
      ∃ v d k, n.vis.lookup x = some (v, d, k) ∧ d + 1 < n.vis.length ∧ upvalTarget s'.params i = some (d, k) ∧
        resolveVal s.stack ps x = some (encVar v.const_ k) ∧ k < 2 ^ 63 := by
  have hrep := h.rep
  rw [hp, hvis] at hrep
  obtain ⟨e1, ps1, hp1, hst1, hg1, hok1, hx1, hx2, hup1⟩ : ∃ e1 ps1, s1.params = e1 :: ps1 ∧ s1.stack = s.stack ∧ s1.globals = s.globals ∧ s1.ok = s.ok ∧ FExt e e1 ∧
      List.Forall₂ FExt ps ps1 ∧ UpOk s.stack (e1 :: ps1) := by
    rcases h1 with rfl | rfl
    · exact ⟨e, ps, hp, rfl, rfl, rfl, FExt.refl e, forall₂_ext_refl ps, hp ▸ h.up⟩
    · have hm : markNearest x s.params = e :: markNearest x ps := by
        rw [hp]; simp [markNearest, FnEnv.contains, hn]
      refine ⟨e, markNearest x ps, hm, rfl, rfl, rfl, FExt.refl e, markNearest_ext x ps, ?_⟩
      rw [← hm]; exact markNearest_up x h.up
  have hr1 : resolveVal s1.stack ps1 x ≠ none := by
    rw [hst1]; simp only [resolveVal, nearestValue_ext hx2] at hr ⊢; exact hr
  obtain ⟨i, e', ps', ha, hb, hc, hd, hi⟩ := upvalRef_spec hp1 (by rw [hst1, hp1]; exact hup1) hr1
  rw [hst1] at hb
  have hxe := hx1.trans hc
  have hxp := forall₂_ext_trans hx2 hd
  have hrep' : RepP s.stack (e' :: ps') (f :: fs) := RepP.flags (.cons hxe hxp) hrep
  obtain ⟨v, d, k, hl, ht⟩ := upval_target ps' e' fs i hb hrep'.2.2 hi
  have hres := RepP.resolve x hrep.2.2
  rw [hl] at hres
  have hfn : findVar x f.flatten = none := by
    have := RepF.get hrep.1 x
    rw [hn] at this
    cases hc : findVar x f.flatten with
    | none => rfl
    | some q => rw [hc] at this; simp at this
  have hk : k < 2 ^ 63 := by
    have key : ∀ {ps : List FnEnv} {fs : Visible}, RepP s.stack ps fs → ∀ {v : SVar} {d k : Nat}, fs.lookup x = some (v, d, k) → k < 2 ^ 63 := by
      intro ps
      induction ps with
      | nil =>
        intro fs hr v d k hl
        match fs, hr with
        | [f], hr =>
          simp only [Visible.lookup] at hl
          split at hl
          · rename_i hf; simp at hl; obtain ⟨_, _, rfl⟩ := hl
            have := (findVar_lt hf).1; have := hr.2.2; omega
          · simp at hl
      | cons p ps ih =>
        intro fs hr v d k hl
        match fs, hr with
        | f :: fs, hr =>
          simp only [Visible.lookup] at hl
          split at hl
          · rename_i hf; simp at hl; obtain ⟨_, _, rfl⟩ := hl
            have := (findVar_lt hf).1; have := hr.1.2.2; omega
          · exact ih hr.2.2 hl
    exact key hrep.2.2 hl
  refine ⟨i, _, ha, ⟨?_, ?_, ?_⟩, ?_, ?_, ?_, ?_, v, d, k, ?_, ?_, ht, by simpa using hres, hk⟩
  · simp only [hst1, hvis]; exact hrep'
  · simp only [hst1]; exact hb
  · simp only [hg1]; exact h.glob
  · exact hok1
  · rw [hp]; exact .cons hxe hxp
  · exact hst1
  · exact hg1
  · rw [hvis]; simp [Visible.lookup, hfn, hl]
  · rw [hvis]; have := lookup_lt hl; simp; omega

/-- What is emitted for a variable: its slot when it belongs to the current function, else an upvalue that leads to it. -/
def RefersTo (s' : NState) (n : Names) (r : Ref) (d k : Nat) : Prop :=
  if d + 1 = n.vis.length then r = .slot (BitVec.ofNat 64 k) else ∃ i, r = .upval i ∧ upvalTarget s'.params i = some (d, k)

theorem nloadVar_spec {s : NState} {n : Names} (h : NInv s n) (x : Name) :
    NInv (s.loadVar x).2 n ∧ List.Forall₂ FExt s.params (s.loadVar x).2.params ∧
    match n.vis.lookup x with
    | some (_, d, k) => RefersTo (s.loadVar x).2 n (s.loadVar x).1 d k ∧ (s.loadVar x).2.ok = s.ok
    | none => (s.loadVar x).1 = if (n.globals x).isSome then .global else .undeclared := by
  have hrep := h.rep
  have hglob : (n.globals x).isSome = (s.globals.get x).isSome := by rw [← h.glob x]; simp
  cases hp : s.params with
  | nil =>
    match hvis : n.vis, hp ▸ hrep with
    | [f], hr =>
      simp only [NState.loadVar, hp]
      cases hv : scopeGet s.stack x with
      | some v =>
        obtain ⟨sv, k, h1, h2, h3, h4, h5⟩ := RepF.slot hr hv
        refine ⟨h, by rw [hp]; exact .nil, ?_⟩
        simp [Visible.lookup, h1, RefersTo, hvis, h4]
      | none =>
        have hf : findVar x f.flatten = none := by
          have := RepF.get hr x
          rw [hv] at this
          cases hc : findVar x f.flatten with
          | none => rfl
          | some q => rw [hc] at this; simp at this
        cases hg : (s.globals.get x).isSome with
        | true => simp only [if_true]; exact ⟨h, by rw [hp]; exact .nil, by simp [Visible.lookup, hf, hglob, hg]⟩
        | false => simp only [Bool.false_eq_true, if_false]; exact ⟨⟨hp ▸ h.rep, hp ▸ h.up, h.glob⟩, .nil, by simp [Visible.lookup, hf, hglob, hg]⟩
  | cons e ps =>
    match hvis : n.vis, hp ▸ hrep with
    | f :: fs, hr =>
      simp only [NState.loadVar, hp]
      cases hv : scopeGet e.scopes x with
      | some v =>
        obtain ⟨sv, k, h1, h2, h3, h4, h5⟩ := RepF.slot hr.1 hv
        refine ⟨h, by simp only [hp]; exact forall₂_ext_refl _, ?_⟩
        simp [Visible.lookup, h1, RefersTo, hvis, h4]
      | none =>
        have hne : nearestValue x (e :: ps) = nearestValue x ps := by simp [nearestValue, hv]
        simp only [hne]
        have fin : ∀ {i : Int} {s' : NState}, (NInv s' n ∧ s'.ok = s.ok ∧ List.Forall₂ FExt s.params s'.params ∧ s'.stack = s.stack ∧ s'.globals = s.globals ∧
            ∃ v d k, n.vis.lookup x = some (v, d, k) ∧ d + 1 < n.vis.length ∧ upvalTarget s'.params i = some (d, k) ∧
              resolveVal s.stack ps x = some (encVar v.const_ k) ∧ k < 2 ^ 63) →
            NInv s' n ∧ List.Forall₂ FExt (e :: ps) s'.params ∧ (match Visible.lookup x (f :: fs) with
              | some (_, d, k) => RefersTo s' n (.upval i) d k ∧ s'.ok = s.ok
              | none => Ref.upval i = if (n.globals x).isSome then .global else .undeclared) := by
          rintro i s' ⟨ha, hb, hc, -, -, v, d, k, hd, he, hf, -⟩
          refine ⟨ha, hp ▸ hc, ?_⟩
          rw [← hvis, hd]
          simp only [RefersTo]
          rw [if_neg (by omega)]
          exact ⟨⟨i, rfl, hf⟩, hb⟩
        cases hnv : nearestValue x ps with
        | some v =>
          obtain ⟨i, s', ha, hb⟩ := upref_spec (x := x) h hp hvis hv (by simp [resolveVal, hnv]) (Or.inr rfl)
          rw [hp] at ha
          simp only [Option.isSome_some, if_true]
          rw [ha]
          exact fin hb
        | none =>
          simp only [Option.isSome_none, Bool.false_eq_true, if_false]
          cases hsv : scopeGet s.stack x with
          | some v =>
            obtain ⟨i, s', ha, hb⟩ := upref_spec (x := x) h hp hvis hv (by simp [resolveVal, hnv, hsv]) (Or.inl rfl)
            simp only [Option.isSome_some, if_true]
            rw [ha]
            exact fin hb
          | none =>
            have hres := RepP.resolve x hr.2.2
            simp only [resolveVal, hnv, hsv, Option.none_or] at hres
            have hl : Visible.lookup x fs = none := by
              cases hc : Visible.lookup x fs with
              | none => rfl
              | some q => rw [hc] at hres; simp at hres
            have hf : findVar x f.flatten = none := by
              have := RepF.get hr.1 x
              rw [hv] at this
              cases hc : findVar x f.flatten with
              | none => rfl
              | some q => rw [hc] at this; simp at this
            simp only [Option.isSome_none, Bool.false_eq_true, if_false]
            cases hg : (s.globals.get x).isSome with
            | true => simp only [if_true]; exact ⟨h, by rw [hp]; exact forall₂_ext_refl _, by simp [Visible.lookup, hf, hl, hglob, hg]⟩
            | false =>
              simp only [Bool.false_eq_true, if_false]
              exact ⟨⟨hp ▸ h.rep, hp ▸ h.up, h.glob⟩, forall₂_ext_refl _, by simp [Visible.lookup, hf, hl, hglob, hg]⟩


theorem RepF.find_none {f : List (List SVar)} {scs : List Scope} (h : RepF f scs) {x : Name} (hv : scopeGet scs x = none) : findVar x f.flatten = none := by
  have := RepF.get h x
  rw [hv] at this
  cases hc : findVar x f.flatten with
  | none => rfl
  | some q => rw [hc] at this; simp at this

theorem nstoreVar_spec {s : NState} {n : Names} (h : NInv s n) (x : Name) :
    NInv (s.storeVar x).2 n ∧ List.Forall₂ FExt s.params (s.storeVar x).2.params ∧
    match n.vis.lookup x with
    | some (v, d, k) => if v.const_ then (s.storeVar x).1 = .constErr ∧ (s.storeVar x).2.ok = false
        else RefersTo (s.storeVar x).2 n (s.storeVar x).1 d k ∧ (s.storeVar x).2.ok = s.ok
    | none => (s.storeVar x).1 = match n.globals x with
        | some c => if c then .constErr else .global
        | none => .undeclared := by
  have hrep := h.rep
  have hglob : n.globals x = (s.globals.get x).map isConst := (h.glob x).symm
  cases hp : s.params with
  | nil =>
    have herr : NInv { s with ok := false } n := ⟨h.rep, h.up, h.glob⟩
    match hvis : n.vis, hp ▸ hrep with
    | [f], hr =>
      simp only [NState.storeVar, hp]
      cases hv : scopeGet s.stack x with
      | some v =>
        obtain ⟨sv, k, h1, h2, h3, h4, h5⟩ := RepF.slot hr hv
        simp only [h5, Visible.lookup, h1]
        cases hc : sv.const_ with
        | true => simp only [if_true]; exact ⟨hp ▸ herr, .nil, trivial, trivial⟩
        | false =>
          have hv' : v = BitVec.ofNat 64 k := by rw [h3, hc]; rfl
          simp only [Bool.false_eq_true, if_false]
          exact ⟨h, by rw [hp]; exact .nil, by simp [RefersTo, hvis, hv'], trivial⟩
      | none =>
        have hf := RepF.find_none hr hv
        simp only [Visible.lookup, hf, hglob]
        cases hg : s.globals.get x with
        | none => exact ⟨hp ▸ herr, .nil, by simp⟩
        | some v =>
          simp only [Option.map_some]
          cases hc : isConst v with
          | true => simp only [if_true]; exact ⟨hp ▸ herr, .nil, by simp⟩
          | false => simp only [Bool.false_eq_true, if_false]; exact ⟨h, by rw [hp]; exact .nil, by simp⟩
  | cons e ps =>
    have herr : NInv { s with ok := false } n := ⟨h.rep, h.up, h.glob⟩
    match hvis : n.vis, hp ▸ hrep with
    | f :: fs, hr =>
      simp only [NState.storeVar, hp]
      cases hv : scopeGet e.scopes x with
      | some v =>
        obtain ⟨sv, k, h1, h2, h3, h4, h5⟩ := RepF.slot hr.1 hv
        simp only [h5, Visible.lookup, h1]
        cases hc : sv.const_ with
        | true => simp only [if_true]; exact ⟨hp ▸ herr, forall₂_ext_refl _, trivial, trivial⟩
        | false =>
          have hv' : v = BitVec.ofNat 64 k := by rw [h3, hc]; rfl
          simp only [Bool.false_eq_true, if_false]
          exact ⟨h, by rw [hp]; exact forall₂_ext_refl _, by simp [RefersTo, hvis, hv'], trivial⟩
      | none =>
        have hne : nearestValue x (e :: ps) = nearestValue x ps := by simp [nearestValue, hv]
        have hf := RepF.find_none hr.1 hv
        simp only [hne]
        have fin : ∀ {i : Int} {s' : NState} {v : BitVec 64}, resolveVal s.stack ps x = some v → isConst v = false →
            (NInv s' n ∧ s'.ok = s.ok ∧ List.Forall₂ FExt s.params s'.params ∧ s'.stack = s.stack ∧ s'.globals = s.globals ∧
            ∃ v d k, n.vis.lookup x = some (v, d, k) ∧ d + 1 < n.vis.length ∧ upvalTarget s'.params i = some (d, k) ∧
              resolveVal s.stack ps x = some (encVar v.const_ k) ∧ k < 2 ^ 63) →
            NInv s' n ∧ List.Forall₂ FExt (e :: ps) s'.params ∧ (match Visible.lookup x (f :: fs) with
              | some (v, d, k) => if v.const_ then Ref.upval i = .constErr ∧ s'.ok = false else RefersTo s' n (.upval i) d k ∧ s'.ok = s.ok
              | none => Ref.upval i = match n.globals x with
                | some c => if c then .constErr else .global
                | none => .undeclared) := by
          rintro i s' v hres hnc ⟨ha, hb, hc, -, -, v', d, k, hd, he, hf, hg, hk⟩
          refine ⟨ha, hp ▸ hc, ?_⟩
          rw [hres] at hg
          have hcc : v'.const_ = false := by
            have : v = encVar v'.const_ k := by simpa using hg
            rw [this, isConst_encVar hk] at hnc; exact hnc
          rw [← hvis, hd]
          simp only [RefersTo, hcc, Bool.false_eq_true, if_false]
          rw [if_neg (by omega)]
          exact ⟨⟨i, rfl, hf⟩, hb⟩
        have bad : ∀ {s' : NState} {v : BitVec 64}, resolveVal s.stack ps x = some v → isConst v = true → NInv s' n → s'.ok = false →
            List.Forall₂ FExt (e :: ps) s'.params →
            NInv s' n ∧ List.Forall₂ FExt (e :: ps) s'.params ∧ (match Visible.lookup x (f :: fs) with
              | some (v, d, k) => if v.const_ then Ref.constErr = .constErr ∧ s'.ok = false else RefersTo s' n .constErr d k ∧ s'.ok = s.ok
              | none => Ref.constErr = match n.globals x with
                | some c => if c then .constErr else .global
                | none => .undeclared) := by
          intro s' v hres hc hi ho hx
          refine ⟨hi, hx, ?_⟩
          have hres' := RepP.resolve x hr.2.2
          rw [hres] at hres'
          cases hl : Visible.lookup x fs with
          | none => rw [hl] at hres'; simp at hres'
          | some q =>
            obtain ⟨sv, d, k⟩ := q
            obtain ⟨i, s'', ha, _, _, _, _, _, v', d', k', hl', _, _, hr', hk⟩ := upref_spec (x := x) h hp hvis hv (by rw [hres]; simp) (Or.inl rfl)
            rw [hvis] at hl'
            rw [hl']
            have : v = encVar v'.const_ k' := by rw [hres] at hr'; simpa using hr'
            rw [this, isConst_encVar hk] at hc
            simp [hc, ho]
        cases hnv : nearestValue x ps with
        | some v =>
          have hres : resolveVal s.stack ps x = some v := by simp [resolveVal, hnv]
          simp only
          cases hc : isConst v with
          | true =>
            simp only [if_true]
            have hm : markNearest x (e :: ps) = markNearest x s.params := by rw [hp]
            have := bad (s' := { params := markNearest x (e :: ps), stack := s.stack, globals := s.globals, ok := false }) hres hc
              ⟨by simp only [hm]; exact RepP.flags (markNearest_ext x _) h.rep, by simp only [hm]; exact markNearest_up x h.up, h.glob⟩ rfl (markNearest_ext x _)
            simpa only [true_and, and_true] using this
          | false =>
            obtain ⟨i, s', ha, hb⟩ := upref_spec (x := x) h hp hvis hv (by simp [hres]) (Or.inr rfl)
            rw [hp] at ha
            simp only [Bool.false_eq_true, if_false]
            rw [ha]
            exact fin hres hc hb
        | none =>
          simp only
          cases hsv : scopeGet s.stack x with
          | some v =>
            have hres : resolveVal s.stack ps x = some v := by simp [resolveVal, hnv, hsv]
            simp only
            cases hc : isConst v with
            | true =>
              have := bad (s' := { params := e :: ps, stack := s.stack, globals := s.globals, ok := false }) hres hc (hp ▸ herr) rfl (forall₂_ext_refl _)
              simpa only [true_and, and_true, if_true] using this
            | false =>
              obtain ⟨i, s', ha, hb⟩ := upref_spec (x := x) h hp hvis hv (by simp [hres]) (Or.inl rfl)
              simp only [Bool.false_eq_true, if_false]
              rw [ha]
              exact fin hres hc hb
          | none =>
            have hres := RepP.resolve x hr.2.2
            simp only [resolveVal, hnv, hsv, Option.none_or] at hres
            have hl : Visible.lookup x fs = none := by
              cases hc : Visible.lookup x fs with
              | none => rfl
              | some q => rw [hc] at hres; simp at hres
            simp only [Visible.lookup, hf, hl, hglob]
            cases hg : s.globals.get x with
            | none => exact ⟨hp ▸ herr, forall₂_ext_refl _, by simp⟩
            | some v =>
              simp only [Option.map_some]
              cases hc : isConst v with
              | true => simp only [if_true]; exact ⟨hp ▸ herr, forall₂_ext_refl _, by simp⟩
              | false => simp only [Bool.false_eq_true, if_false]; exact ⟨h, by rw [hp]; exact forall₂_ext_refl _, by simp⟩

/-! ## Every operation keeps the tables right -/

theorem RepFlat.split : ∀ {b : List SVar} {sc : Scope} {r : List SVar} {r' : Scope}, b.length = sc.length → RepFlat (b ++ r) (sc ++ r') →
    RepFlat r r' ∧ sc.map Prod.fst = b.map SVar.name
  | [], [], _, _, _, h => ⟨h, rfl⟩
  | v :: b, (x, z) :: sc, r, r', hl, h => by
    obtain ⟨rfl, _, h⟩ := h
    have := RepFlat.split (by simpa using hl) h
    exact ⟨this.1, by simp [this.2]⟩
  | [], _ :: _, _, _, hl, _ => by simp at hl
  | _ :: _, [], _, _, hl, _ => by simp at hl

theorem RepF.enter {f : List (List SVar)} {scs : List Scope} (h : RepF f scs) : RepF ([] :: f) ([] :: scs) :=
  ⟨by simp [h.1], by simpa using h.2.1, by simpa using h.2.2⟩

theorem RepF.exit {f : List (List SVar)} {scs : List Scope} (h : RepF f scs) : RepF f.tail scs.tail := by
  obtain ⟨h1, h2, h3⟩ := h
  match f, scs, h1, h2, h3 with
  | [], [], h1, h2, h3 => exact ⟨rfl, h2, h3⟩
  | b :: f, sc :: scs, h1, h2, h3 =>
    simp only [List.map_cons, List.cons.injEq] at h1
    simp only [List.flatten_cons] at h2 h3
    exact ⟨by simpa using h1.2, (RepFlat.split h1.1.symm h2).1, by simp at h3 ⊢; omega⟩
  | [], _ :: _, h1, _, _ => simp at h1
  | _ :: _, [], h1, _, _ => simp at h1

theorem RepF.declare {b : List SVar} {f : List (List SVar)} {sc : Scope} {scs : List Scope} (h : RepF (b :: f) (sc :: scs)) {x : Name} {c : Bool}
    (hx : ∀ v ∈ b, v.name ≠ x) (hl : scopeLen (declIn x (sc :: scs)) ≤ 255) :
    sc.get x = none ∧ declIn x (sc :: scs) = ((x, BitVec.ofNat 64 (b :: f).flatten.length) :: sc) :: scs ∧
    RepF ((⟨x, c⟩ :: b) :: f) (((x, encVar c (b :: f).flatten.length) :: sc) :: scs) := by
  obtain ⟨h1, h2, h3⟩ := h
  simp only [List.map_cons, List.cons.injEq] at h1
  have hsp := RepFlat.split (b := b) (sc := sc) (r := f.flatten) (r' := scs.flatten) h1.1.symm (by simpa using h2)
  have hg : sc.get x = none := by
    simp only [Scope.get, Option.map_eq_none_iff, List.find?_eq_none]
    intro p hp hpx
    have : p.1 ∈ b.map SVar.name := by rw [← hsp.2]; exact List.mem_map_of_mem hp
    obtain ⟨v, hv, hvp⟩ := List.mem_map.1 this
    exact hx v hv (by rw [hvp]; simpa using hpx)
  have hlen : (sc :: scs).flatten.length = (b :: f).flatten.length := RepFlat.length h2
  have hd : declIn x (sc :: scs) = ((x, BitVec.ofNat 64 (b :: f).flatten.length) :: sc) :: scs := by
    simp only [declIn, Scope.put, hg, if_true, scopeLen_flatten, hlen]
  refine ⟨hg, hd, by simp [h1], ⟨rfl, rfl, h2⟩, ?_⟩
  rw [hd, scopeLen_flatten] at hl
  simp only [List.flatten_cons, List.length_append, List.length_cons] at hl hlen ⊢
  omega

theorem makeConst_head {sc : Scope} {scs : List Scope} {x : Name} {z : BitVec 64} (h : sc.get x = none) :
    scopeMakeConst (((x, z) :: sc) :: scs) x = ((x, ~~~z) :: sc) :: scs := by
  have : Scope.get ((x, z) :: sc) x = some z := by simp [Scope.get]
  simp only [scopeMakeConst, this, put_head h]


/-- A function later on, possibly with other scopes. -/
structure FLater (e e' : FnEnv) : Prop where
  idx : ∀ x i, upGet e.upIdx x = some i → upGet e'.upIdx x = some i
  val : ∀ x i, upGet e.upVal x = some i → upGet e'.upVal x = some i

theorem FExt.later {e e' : FnEnv} (h : FExt e e') : FLater e e' := ⟨h.idx, h.val⟩
theorem FLater.refl (e : FnEnv) : FLater e e := ⟨fun _ _ h => h, fun _ _ h => h⟩
theorem FLater.trans {a b c : FnEnv} (h : FLater a b) (h' : FLater b c) : FLater a c :=
  ⟨fun x i hx => h'.idx x i (h.idx x i hx), fun x i hx => h'.val x i (h.val x i hx)⟩

theorem forall₂_later_refl : ∀ l : List FnEnv, List.Forall₂ FLater l l
  | [] => .nil
  | e :: l => .cons (FLater.refl e) (forall₂_later_refl l)

theorem forall₂_later_trans : ∀ {a b c : List FnEnv}, List.Forall₂ FLater a b → List.Forall₂ FLater b c → List.Forall₂ FLater a c
  | _, _, _, .nil, .nil => .nil
  | _, _, _, .cons h t, .cons h' t' => .cons (h.trans h') (forall₂_later_trans t t')

theorem forall₂_ext_later : ∀ {a b : List FnEnv}, List.Forall₂ FExt a b → List.Forall₂ FLater a b
  | _, _, .nil => .nil
  | _, _, .cons h t => .cons h.later (forall₂_ext_later t)

/-- How an operation changes the list of functions. -/
def ParamsStep (ps ps' : List FnEnv) : Prop := List.Forall₂ FLater ps ps' ∨ (∃ e, ps' = e :: ps) ∨ (∃ e, ps = e :: ps')

theorem declVar_step {s : NState} {n : Names} (h : NInv s n) {x : Name} {c : Bool} (hx : n.fresh x) (hok : (s.param x c).ok = true)
    (hg : s.globals.length < 2 ^ 62) :
    s.containsCur x = false ∧ NInv (s.param x c) (n.declare x c) ∧ ParamsStep s.params (s.param x c).params ∧
      (s.param x c).globals.length ≤ s.globals.length + 1 := by
  have hrep := h.rep
  cases hp : s.params with
  | nil =>
    match hvis : n.vis, hp ▸ hrep with
    | [f], hr =>
      cases hst : s.stack with
      | nil =>
        have hf : f = [] := by
          have := hr.1; rw [hst] at this; simpa using this
        subst hf
        have hgx : s.globals.get x = none := by
          have := h.glob x
          simp only [Names.fresh, hvis] at hx
          rw [hx] at this; simpa using this
        refine ⟨by simp [NState.containsCur, hp, hst, hgx], ?_, ?_, ?_⟩
        · have hcc : ∀ b : Bool, isConst (encVar b s.globals.length) = b := fun b => isConst_encVar (by omega)
          have he : s.param x c = { s with globals := (x, encVar c s.globals.length) :: s.globals } := by
            cases c with
            | false => simp [NState.param, NState.declVar, hp, hst, Scope.put, hgx, encVar]
            | true =>
              have hput : s.globals.put x (BitVec.ofNat 64 s.globals.length) = (x, BitVec.ofNat 64 s.globals.length) :: s.globals := by
                simp [Scope.put, hgx]
              simp only [NState.param, NState.declVar, hp, hst, if_true, NState.makeConst, hput]
              have : Scope.get ((x, BitVec.ofNat 64 s.globals.length) :: s.globals) x = some (BitVec.ofNat 64 s.globals.length) := by simp [Scope.get]
              simp only [this, put_head hgx]; rfl
          rw [he]
          refine ⟨?_, ?_, ?_⟩
          · simp only [Names.declare, hvis, hp]; exact hp ▸ hvis ▸ h.rep
          · simp only [hp]; trivial
          · intro y
            simp only [Names.declare, hvis]
            by_cases hyx : y = x
            · subst hyx; simp [Scope.get, hcc]
            · have := h.glob y
              simp only [Scope.get, List.find?_cons, beq_false_of_ne (Ne.symm hyx), if_neg hyx] at this ⊢
              exact this
        · left
          have : (s.param x c).params = [] := by
            cases c <;> simp [NState.param, NState.declVar, hp, hst, NState.makeConst]
            split <;> simp [hp]
          rw [this]; exact .nil
        · cases c with
          | false => simp [NState.param, NState.declVar, hp, hst, Scope.put, hgx]
          | true =>
            have : Scope.get ((x, BitVec.ofNat 64 s.globals.length) :: s.globals) x = some (BitVec.ofNat 64 s.globals.length) := by simp [Scope.get]
            simp only [NState.param, NState.declVar, hp, hst, if_true, NState.makeConst, Scope.put, hgx, this]
            simp
      | cons sc scs =>
        match f, hst ▸ hr with
        | b :: f, hr =>
          have hx' : ∀ v ∈ b, v.name ≠ x := by simpa [Names.fresh, hvis] using hx
          have hlen : scopeLen (declIn x (sc :: scs)) ≤ 255 := by
            have : (s.param x c).ok = (s.ok && !decide (scopeLen (declIn x (sc :: scs)) > 255)) := by
              have hd : declIn x (sc :: scs) = sc.put x (BitVec.ofNat 64 (scopeLen (sc :: scs))) :: scs := rfl
              cases c <;> simp [NState.param, NState.declVar, hp, hst, NState.makeConst, hd]
            rw [this] at hok; simp at hok; exact hok.2
          obtain ⟨h1, h2, h3⟩ := RepF.declare (c := c) hr hx' hlen
          have he : s.param x c = { s with stack := ((x, encVar c (b :: f).flatten.length) :: sc) :: scs, ok := true } := by
            have hs : s.ok = true := by
              cases c <;> simp [NState.param, NState.declVar, hp, hst, NState.makeConst, h2] at hok <;> exact hok.1
            have hle : ¬ (scopeLen (((x, BitVec.ofNat 64 (b :: f).flatten.length) :: sc) :: scs) > 255) := by rw [h2] at hlen; omega
            cases c with
            | false => simp only [NState.param, NState.declVar, hp, hst, h2, hle, hs]; rfl
            | true =>
              simp only [NState.param, NState.declVar, hp, hst, h2, hle, hs, if_true, NState.makeConst, makeConst_head h1]; rfl
          refine ⟨by simp [NState.containsCur, hp, hst, h1], ?_, ?_, ?_⟩
          · rw [he]
            refine ⟨?_, ?_, fun y => by simp only [Names.declare, hvis]; exact h.glob y⟩
            · simp only [hp, Names.declare, hvis, Visible.declare]; exact h3
            · simp only [hp]; trivial
          · rw [he]; left; simp only [hp]; exact .nil
          · rw [he]; simp
        | [], hr => have := hr.1; simp at this
  | cons e ps =>
    match hvis : n.vis, hp ▸ hrep with
    | f :: fs, hr =>
      obtain ⟨hr1, hne, hr2⟩ := hr
      cases hes : e.scopes with
      | nil =>
        rw [hes] at hr1
        have := hr1.1
        simp at this; exact absurd this hne
      | cons sc scs =>
      rw [hes] at hr1
      cases f with
      | nil => exact absurd rfl hne
      | cons b f =>
        have hx' : ∀ v ∈ b, v.name ≠ x := by simpa [Names.fresh, hvis] using hx
        have hlen : scopeLen (declIn x (sc :: scs)) ≤ 255 := by
          have : (s.param x c).ok = (s.ok && !decide (scopeLen (declIn x (sc :: scs)) > 255)) := by
            cases c <;> simp [NState.param, NState.declVar, hp, hes, NState.makeConst]
          rw [this] at hok; simp at hok; exact hok.2
        obtain ⟨h1, h2, h3⟩ := RepF.declare (c := c) hr1 hx' hlen
        have he : s.param x c = { s with params := { e with scopes := ((x, encVar c (b :: f).flatten.length) :: sc) :: scs } :: ps, ok := true } := by
          have hs : s.ok = true := by
            cases c <;> simp [NState.param, NState.declVar, hp, hes, NState.makeConst, h2] at hok <;> exact hok.1
          have hle : ¬ (scopeLen (((x, BitVec.ofNat 64 (b :: f).flatten.length) :: sc) :: scs) > 255) := by rw [h2] at hlen; omega
          cases c with
          | false => simp only [NState.param, NState.declVar, hp, hes, h2, hle, hs]; rfl
          | true =>
            simp only [NState.param, NState.declVar, hp, hes, h2, hle, hs, if_true, NState.makeConst, makeConst_head h1]; rfl
        have hup := h.up
        rw [hp] at hup
        refine ⟨by simp [NState.containsCur, hp, hes, h1], ?_, ?_, ?_⟩
        · rw [he]
          refine ⟨?_, hup.flags rfl rfl, fun y => by simp only [Names.declare, hvis]; exact h.glob y⟩
          simp only [Names.declare, hvis, Visible.declare]
          exact ⟨h3, by simp, hr2⟩
        · rw [he]; left; exact .cons ⟨fun _ _ h => h, fun _ _ h => h⟩ (forall₂_later_refl ps)
        · rw [he]; simp

theorem nop_spec {s : NState} {n : Names} (h : NInv s n) {op : NOp} (ha : n.allows op) (hok : (s.op op).ok = true) (hg : s.globals.length < 2 ^ 62) :
    NInv (s.op op) (n.op op) ∧ ParamsStep s.params (s.op op).params ∧ (s.op op).globals.length ≤ s.globals.length + 1 := by
  have hrep := h.rep
  cases op with
  | load x =>
    have := nloadVar_spec h x
    refine ⟨this.1, Or.inl (forall₂_ext_later this.2.1), ?_⟩
    have hgl : (s.loadVar x).2.globals = s.globals := by
      simp only [NState.loadVar, NState.upvalRef]
      split
      · split
        · rfl
        · split
          · split <;> rfl
          · split
            · split <;> rfl
            · split <;> rfl
      · split
        · rfl
        · split <;> rfl
    simp [NState.op, hgl]
  | store x =>
    have := nstoreVar_spec h x
    refine ⟨this.1, Or.inl (forall₂_ext_later this.2.1), ?_⟩
    have hgl : (s.storeVar x).2.globals = s.globals := by
      simp only [NState.storeVar, NState.upvalRef]
      repeat' split
      all_goals rfl
    simp [NState.op, hgl]
  | param x c =>
    have := declVar_step h ha hok hg
    exact this.2
  | declare x c =>
    have hok' : (s.param x c).ok = true := by
      by_cases hc : s.containsCur x
      · simp [NState.op, NState.declare, hc] at hok
      · simpa [NState.op, NState.declare, hc, NState.param] using hok
    have := declVar_step h ha hok' hg
    have he : s.declare x c = s.param x c := by simp [NState.declare, this.1, NState.param]
    simp only [NState.op, he]
    exact this.2
  | enterScope =>
    cases hp : s.params with
    | nil =>
      match hvis : n.vis, hp ▸ hrep with
      | [f], hr =>
        refine ⟨⟨?_, ?_, ?_⟩, ?_, ?_⟩
        · simp only [NState.op, NState.enterScope, hp, Names.op, hvis, Visible.enterBlock]; exact RepF.enter hr
        · simp only [NState.op, NState.enterScope, hp]; trivial
        · simp only [NState.op, NState.enterScope, hp, Names.op]; exact h.glob
        · simp only [NState.op, NState.enterScope, hp]; exact Or.inl .nil
        · simp [NState.op, NState.enterScope, hp]
    | cons e ps =>
      match hvis : n.vis, hp ▸ hrep with
      | f :: fs, hr =>
        have hup := h.up
        rw [hp] at hup
        refine ⟨⟨?_, ?_, ?_⟩, ?_, ?_⟩
        · simp only [NState.op, NState.enterScope, hp, Names.op, hvis, Visible.enterBlock]; exact ⟨RepF.enter hr.1, by simp, hr.2.2⟩
        · simp only [NState.op, NState.enterScope, hp]; exact hup.flags rfl rfl
        · simp only [NState.op, NState.enterScope, hp, Names.op]; exact h.glob
        · simp only [NState.op, NState.enterScope, hp]
          exact Or.inl (.cons ⟨fun _ _ h => h, fun _ _ h => h⟩ (forall₂_later_refl ps))
        · simp [NState.op, NState.enterScope, hp]
  | exitScope =>
    cases hp : s.params with
    | nil =>
      match hvis : n.vis, hp ▸ hrep with
      | [f], hr =>
        refine ⟨⟨?_, ?_, ?_⟩, ?_, ?_⟩
        · simp only [NState.op, NState.exitScope, hp, Names.op, hvis, Visible.exitBlock]; exact RepF.exit hr
        · simp only [NState.op, NState.exitScope, hp]; trivial
        · simp only [NState.op, NState.exitScope, hp, Names.op]; exact h.glob
        · simp only [NState.op, NState.exitScope, hp]; exact Or.inl .nil
        · simp [NState.op, NState.exitScope, hp]
    | cons e ps =>
      match hvis : n.vis, hp ▸ hrep with
      | f :: fs, hr =>
        have hup := h.up
        rw [hp] at hup
        have hl := RepP.length hr.2.2
        have hne : f.tail ≠ [] := by
          match fs, hl with
          | g :: gs, _ =>
            simp only [Names.allows, hvis] at ha
            intro hc
            have := congrArg List.length hc
            simp at this; omega
        refine ⟨⟨?_, ?_, ?_⟩, ?_, ?_⟩
        · simp only [NState.op, NState.exitScope, hp, Names.op, hvis, Visible.exitBlock]; exact ⟨RepF.exit hr.1, hne, hr.2.2⟩
        · simp only [NState.op, NState.exitScope, hp]; exact hup.flags rfl rfl
        · simp only [NState.op, NState.exitScope, hp, Names.op]; exact h.glob
        · simp only [NState.op, NState.exitScope, hp]
          exact Or.inl (.cons ⟨fun _ _ h => h, fun _ _ h => h⟩ (forall₂_later_refl ps))
        · simp [NState.op, NState.exitScope, hp]
  | enterFn =>
    refine ⟨⟨?_, ?_, h.glob⟩, Or.inr (Or.inl ⟨_, rfl⟩), by simp [NState.op, NState.enterFn]⟩
    · simp only [NState.op, NState.enterFn, Names.op]
      exact ⟨⟨rfl, trivial, by simp⟩, by simp, hrep⟩
    · simp only [NState.op, NState.enterFn]
      exact ⟨trivial, fun x => by simp [FnEnv.new, upGet], fun x v hv => by simp [FnEnv.new, upGet] at hv, h.up⟩
  | exitFn =>
    have hl := RepP.length hrep
    simp only [Names.allows] at ha
    cases hp : s.params with
    | nil => rw [hp] at hl; simp at hl; omega
    | cons e ps =>
      match hvis : n.vis, hp ▸ hrep with
      | f :: fs, hr =>
        have hup := h.up
        rw [hp] at hup
        refine ⟨⟨?_, ?_, h.glob⟩, Or.inr (Or.inr ⟨e, by simp [NState.op, NState.exitFn, hp]⟩), by simp [NState.op, NState.exitFn]⟩
        · simp only [NState.op, NState.exitFn, hp, Names.op, hvis, List.tail_cons]; exact hr.2.2
        · simp only [NState.op, NState.exitFn, hp, List.tail_cons]; exact hup.2.2.2


theorem nop_ok {s : NState} {op : NOp} (h : (s.op op).ok = true) : s.ok = true := by
  cases op with
  | enterScope => simp only [NState.op, NState.enterScope] at h; split at h <;> exact h
  | exitScope => simp only [NState.op, NState.exitScope] at h; split at h <;> exact h
  | enterFn => exact h
  | exitFn => exact h
  | load x =>
    simp only [NState.op, NState.loadVar, NState.upvalRef] at h
    repeat' split at h
    all_goals first | exact h | simp at h
  | store x =>
    simp only [NState.op, NState.storeVar, NState.upvalRef] at h
    repeat' split at h
    all_goals first | exact h | simp at h
  | param x c =>
    have key : ∀ s : NState, (s.declVar x).ok = true → s.ok = true := by
      intro s h
      simp only [NState.declVar] at h
      repeat' split at h
      all_goals first | exact h | (simp at h; exact h.1)
    simp only [NState.op, NState.param] at h
    split at h
    · have : ((s.declVar x).makeConst x).ok = (s.declVar x).ok := by
        simp only [NState.makeConst]; repeat' split
        all_goals rfl
      exact key s (this ▸ h)
    · exact key s h
  | declare x c =>
    have key : ∀ s : NState, (s.declVar x).ok = true → s.ok = true := by
      intro s h
      simp only [NState.declVar] at h
      repeat' split at h
      all_goals first | exact h | (simp at h; exact h.1)
    simp only [NState.op, NState.declare] at h
    split at h
    · simp at h
    · split at h
      · have : ((s.declVar x).makeConst x).ok = (s.declVar x).ok := by
          simp only [NState.makeConst]; repeat' split
          all_goals rfl
        exact key s (this ▸ h)
      · exact key s h

theorem nrun_ok : ∀ {ops : List NOp} {s : NState}, (ops.foldl NState.op s).ok = true → s.ok = true
  | [], _, h => h
  | _ :: _, _, h => nop_ok (nrun_ok h)

theorem nrun_spec : ∀ {ops : List NOp} {s : NState} {n : Names}, NInv s n → n.allowsAll ops → (ops.foldl NState.op s).ok = true →
    s.globals.length + ops.length < 2 ^ 62 → NInv (ops.foldl NState.op s) (ops.foldl Names.op n) ∧ (ops.foldl NState.op s).globals.length ≤ s.globals.length + ops.length
  | [], _, _, h, _, _, _ => ⟨h, by simp⟩
  | op :: ops, s, n, h, ha, hok, hg => by
    simp only [List.length_cons] at hg
    have h1 := nop_spec h ha.1 (nrun_ok (ops := ops) hok) (by omega)
    have := nrun_spec h1.1 ha.2 hok (by omega)
    exact ⟨this.1, by simp only [List.foldl_cons, List.length_cons]; omega⟩

theorem forall₂_later_length : ∀ {a b : List FnEnv}, List.Forall₂ FLater a b → a.length = b.length
  | _, _, .nil => rfl
  | _, _, .cons _ t => by simp [forall₂_later_length t]

theorem forall₂_later_drop : ∀ {a b : List FnEnv} (k : Nat), List.Forall₂ FLater a b → List.Forall₂ FLater (a.drop k) (b.drop k)
  | _, _, 0, h => h
  | _, _, _ + 1, .nil => .nil
  | _, _, k + 1, .cons _ t => forall₂_later_drop k t

/-- The last `m` functions. -/
def outer (m : Nat) (ps : List FnEnv) : List FnEnv := ps.drop (ps.length - m)

theorem ParamsStep.outer {ps ps' : List FnEnv} (h : ParamsStep ps ps') {m : Nat} (h1 : m ≤ ps.length) (h2 : m ≤ ps'.length) :
    List.Forall₂ FLater (outer m ps) (outer m ps') := by
  rcases h with h | ⟨e, rfl⟩ | ⟨e, rfl⟩
  · unfold Yasl.outer
    rw [← forall₂_later_length h]
    exact forall₂_later_drop _ h
  · have : Yasl.outer m (e :: ps) = Yasl.outer m ps := by
      unfold Yasl.outer
      rw [List.length_cons, show ps.length + 1 - m = (ps.length - m) + 1 by omega, List.drop_succ_cons]
    rw [this]; exact forall₂_later_refl _
  · have : Yasl.outer m (e :: ps') = Yasl.outer m ps' := by
      unfold Yasl.outer
      rw [List.length_cons, show ps'.length + 1 - m = (ps'.length - m) + 1 by omega, List.drop_succ_cons]
    rw [this]; exact forall₂_later_refl _

theorem upvalTarget_later {stack stack' : List Scope} : ∀ {ps ps' : List FnEnv}, List.Forall₂ FLater ps ps' → UpOk stack ps → UpOk stack' ps' →
    ∀ {i : Int} {t : Nat × Nat}, upvalTarget ps i = some t → upvalTarget ps' i = some t
  | _, _, .nil, _, _, i, t, h => by simp [upvalTarget] at h
  | e :: ps, e' :: ps', .cons hh ht, h1, h2, i, t, h => by
    simp only [upvalTarget] at h ⊢
    split at h
    · simp at h
    rename_i x j hf
    have hx := h1.1.find_inv hf
    rw [h2.1.find (hh.idx x i hx)]
    simp only
    split at h
    · simp at h
    rename_i v hv
    rw [hh.val x v hv]
    simp only
    split at h
    · rename_i hneg; rw [if_pos hneg]; exact upvalTarget_later ht h1.2.2.2 h2.2.2.2 h
    · rename_i hneg; rw [if_neg hneg, ← forall₂_later_length ht]; exact h

/-- All the time at least `m` functions are open. -/
def Names.staysInside (m : Nat) : Names → List NOp → Prop
  | s, [] => m < s.vis.length
  | s, op :: ops => m < s.vis.length ∧ (s.op op).staysInside m ops

theorem nrun_outer {m : Nat} : ∀ {ops : List NOp} {s : NState} {n : Names}, NInv s n → n.allowsAll ops → (ops.foldl NState.op s).ok = true →
    s.globals.length + ops.length < 2 ^ 62 → n.staysInside m ops → List.Forall₂ FLater (outer m s.params) (outer m (ops.foldl NState.op s).params)
  | [], _, _, _, _, _, _, _ => forall₂_later_refl _
  | op :: ops, s, n, h, ha, hok, hg, hs => by
    simp only [List.length_cons] at hg
    have h1 := nop_spec h ha.1 (nrun_ok (ops := ops) hok) (by omega)
    have hrest := nrun_outer (m := m) h1.1 ha.2 hok (by omega) hs.2
    have l1 := RepP.length h.rep
    have l2 := RepP.length h1.1.rep
    have hm2 : m < (n.op op).vis.length := by
      have := hs.2; cases ops <;> simp only [Names.staysInside] at this
      · exact this
      · exact this.1
    exact forall₂_later_trans (h1.2.1.outer (by have := hs.1; omega) (by omega)) hrest

theorem initial_inv : NInv NState.initial Names.initial := ⟨⟨rfl, trivial, by simp⟩, trivial, fun x => rfl⟩

theorem findVar_at {x : Name} : ∀ {vs : List SVar} {v : SVar} {k : Nat}, findVar x vs = some (v, k) → vs[vs.length - 1 - k]? = some v
  | u :: vs, v, k, h => by
    unfold findVar at h
    split at h
    · simp at h; obtain ⟨rfl, rfl⟩ := h; simp
    · have ih := findVar_at h
      have := (findVar_lt h).1
      rw [show (u :: vs).length - 1 - k = (vs.length - 1 - k) + 1 by simp; omega, List.getElem?_cons_succ]
      exact ih

theorem lookup_at {x : Name} : ∀ {vis : Visible} {v : SVar} {d k : Nat}, vis.lookup x = some (v, d, k) →
    ∃ f, vis[vis.length - 1 - d]? = some f ∧ findVar x f.flatten = some (v, k)
  | f :: fs, v, d, k, h => by
    unfold Visible.lookup at h
    split at h
    · rename_i hf
      simp at h; obtain ⟨rfl, rfl, rfl⟩ := h
      exact ⟨f, by simp, hf⟩
    · obtain ⟨g, h1, h2⟩ := lookup_at h
      have := lookup_lt h
      refine ⟨g, ?_, h2⟩
      rw [show (f :: fs).length - 1 - d = (fs.length - 1 - d) + 1 by simp; omega, List.getElem?_cons_succ]
      exact h1

/-- The same place is the same name. -/
theorem lookup_inj {vis : Visible} {x y : Name} {v w : SVar} {d k : Nat} (hx : vis.lookup x = some (v, d, k)) (hy : vis.lookup y = some (w, d, k)) : x = y := by
  obtain ⟨f, h1, h2⟩ := lookup_at hx
  obtain ⟨g, h3, h4⟩ := lookup_at hy
  rw [h1] at h3
  obtain rfl : f = g := by simpa using h3
  have e1 := findVar_at h2
  have e2 := findVar_at h4
  rw [e1] at e2
  obtain rfl : v = w := by simpa using e2
  rw [← (findVar_lt h2).2, (findVar_lt h4).2]

end Yasl
