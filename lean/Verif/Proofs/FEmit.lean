import Verif.Proofs.FSimE
import Verif.Proofs.CompileTop
import Verif.Model.FCompile
import Verif.Spec.FFits
import Mathlib.Data.List.Perm.Subperm
set_option autoImplicit false
/-! # What the compiler with functions emits: its state, and variables -/
namespace Yasl

/-! ## Scopes -/

/-- Every variable has the number of older ones as its index. -/
def ScRep : Scope → Prop
  | [] => True
  | (_, v) :: sc => getIndex v = BitVec.ofNat 64 sc.length ∧ ScRep sc

theorem ScRep.right : ∀ {a b : Scope}, ScRep (a ++ b) → ScRep b
  | [], _, h => h
  | _ :: _, _, h => ScRep.right h.2

theorem Scope.get_cons (y : Name) (v : BitVec 64) (sc : Scope) (x : Name) : Scope.get ((y, v) :: sc) x = if y = x then some v else sc.get x := by
  simp only [Scope.get, List.find?_cons]
  by_cases h : y = x
  · simp [h]
  · have hyx : (y == x) = false := by simpa using h
    simp [hyx, h]

theorem Scope.get_none : ∀ {sc : Scope} {x : Name}, sc.get x = none ↔ x ∉ sc.map Prod.fst
  | [], x => by simp [Scope.get]
  | (y, v) :: sc, x => by
    rw [Scope.get_cons]
    by_cases h : y = x
    · simp [h]
    · rw [if_neg h, Scope.get_none (sc := sc)]
      simp [Ne.symm h]

theorem ScRep.get : ∀ {sc : Scope} {x : Name} {v : BitVec 64}, ScRep sc → sc.get x = some v →
    ∃ i j, PosOf (sc.map Prod.fst) x j ∧ i + j + 1 = sc.length ∧ getIndex v = BitVec.ofNat 64 i
  | [], x, v, _, hv => by simp [Scope.get] at hv
  | (y, z) :: sc, x, v, h, hv => by
    rw [Scope.get_cons] at hv
    by_cases hy : y = x
    · rw [if_pos hy] at hv
      cases hv
      exact ⟨sc.length, 0, hy, by simp, h.1⟩
    · rw [if_neg hy] at hv
      obtain ⟨i, j, h1, h2, h3⟩ := ScRep.get h.2 hv
      exact ⟨i, j + 1, ⟨hy, h1⟩, by simp; omega, h3⟩

theorem scopeGet_none {scs : List Scope} {x : Name} : scopeGet scs x = none ↔ x ∉ scs.flatten.map Prod.fst := by
  rw [scopeGet_flatten, Scope.get_none]

/-! ## Captured variables -/

/-- The captured variables of a function: variables of the file, each once, with the right bytes; `par` are those of the function around it. -/
def UpsOk (sts : List Name) (par : Option (List Name)) (us : List (Name × Byte)) : Prop :=
  (us.map Prod.fst).Nodup ∧ (∀ x ∈ us.map Prod.fst, x ∈ sts) ∧ ∀ q ∈ us, UpByte ⟨[], sts, par⟩ q.1 q.2

/-- The same for all functions, the innermost first. -/
def UpsRel (sts : List Name) : List (List (Name × Byte)) → Prop
  | [] => True
  | us :: rest => UpsOk sts (rest.head?.map (·.map Prod.fst)) us ∧ UpsRel sts rest

/-- The scopes around the current function: names `hid` which have to be avoided, and at the end the file. -/
def OutScopes (sts hid : List Name) : List (List Scope) → Prop
  | [] => False
  | [file] => ∃ blocks st, file = blocks ++ [st] ∧ st.map Prod.fst = sts ∧ ScRep st ∧ ∀ x ∈ blocks.flatten.map Prod.fst, x ∈ hid
  | o :: rest => (∀ x ∈ o.flatten.map Prod.fst, x ∈ hid) ∧ OutScopes sts hid rest

theorem UpByte.mono {S S' : SEnv} {x : Name} {b : Byte} (hs : S'.sts = S.sts)
    (hu : match S.ups, S'.ups with | none, none => True | some U, some U' => U <+: U' | _, _ => False) (h : UpByte S x b) : UpByte S' x b := by
  unfold UpByte at h ⊢
  cases h1 : S.ups <;> cases h2 : S'.ups <;> simp only [h1, h2] at h hu ⊢
  · rw [hs]; exact h
  · obtain ⟨k, h3, h4, h5⟩ := h
    exact ⟨k, by obtain ⟨t, rfl⟩ := hu; rw [List.getElem?_append_left (by rw [List.getElem?_eq_some_iff] at h3; exact h3.1)]; exact h3, h4, h5⟩

theorem UpsOk.length {sts : List Name} {par : Option (List Name)} {us : List (Name × Byte)} (h : UpsOk sts par us) : us.length ≤ sts.length := by
  have := (List.subperm_of_subset h.1 h.2.1).length_le
  simpa using this

/-- Each list is a prefix of the other one. -/
def UpsGrow (a b : List (List (Name × Byte))) : Prop := List.Forall₂ (· <+: ·) a b

theorem UpsGrow.refl (a : List (List (Name × Byte))) : UpsGrow a a := by
  induction a with
  | nil => exact .nil
  | cons x xs ih => exact .cons (List.prefix_refl _) ih

theorem UpsGrow.trans : ∀ {a b c : List (List (Name × Byte))}, UpsGrow a b → UpsGrow b c → UpsGrow a c
  | _, _, _, .nil, .nil => .nil
  | _, _, _, .cons h1 h2, .cons h3 h4 => .cons (h1.trans h3) (UpsGrow.trans h2 h4)

theorem UpsOk.mono {sts : List Name} {rest rest' : List (List (Name × Byte))} {us : List (Name × Byte)}
    (h : UpsOk sts (rest.head?.map (·.map Prod.fst)) us) (hg : UpsGrow rest rest') : UpsOk sts (rest'.head?.map (·.map Prod.fst)) us := by
  refine ⟨h.1, h.2.1, fun q hq => ?_⟩
  refine UpByte.mono (S := ⟨[], sts, rest.head?.map (·.map Prod.fst)⟩) rfl ?_ (h.2.2 q hq)
  cases hg with
  | nil => exact trivial
  | cons h1 h2 => exact List.IsPrefix.map Prod.fst h1

theorem not_mem_hid_get {hid : List Name} {o : List Scope} {x : Name} (h : ∀ x ∈ o.flatten.map Prod.fst, x ∈ hid) (hx : x ∉ hid) : scopeGet o x = none := by
  rw [scopeGet_none]; exact fun hm => hx (h x hm)

theorem scopeGet_append (a b : List Scope) (x : Name) (h : scopeGet a x = none) : scopeGet (a ++ b) x = scopeGet b x := by
  rw [scopeGet_none] at h
  rw [scopeGet_flatten, scopeGet_flatten, List.flatten_append]
  generalize a.flatten = sc at h
  induction sc with
  | nil => rfl
  | cons q sc ih =>
    simp only [List.map_cons, List.mem_cons, not_or] at h
    rw [List.cons_append, show q = (q.1, q.2) from rfl, Scope.get_cons, if_neg (Ne.symm h.1)]
    exact ih h.2

theorem addUp_spec {sts hid : List Name} {x : Name} (hst : sts.length ≤ 128) (hx : x ∈ sts) (hh : x ∉ hid) : ∀ (outer : List (List Scope)) (us : List (Name × Byte))
    (rest : List (List (Name × Byte))), OutScopes sts hid outer → (us :: rest).length = outer.length → UpsRel sts (us :: rest) →
    ∃ us' rest', (addUp outer (us :: rest) x).2 = us' :: rest' ∧ (us'.map Prod.fst)[(addUp outer (us :: rest) x).1]? = some x ∧
      UpsRel sts (us' :: rest') ∧ UpsGrow (us :: rest) (us' :: rest')
  | [], us, rest, ho, hl, hu => by simp at hl
  | o :: outer, us, rest, ho, hl, hu => by
    rw [addUp]
    split
    · rename_i i hi
      refine ⟨us, rest, rfl, ?_, hu, UpsGrow.refl _⟩
      rw [List.idxOf?_eq_some_iff] at hi
      obtain ⟨h1, h2, _⟩ := hi
      rw [List.getElem?_eq_some_iff]; exact ⟨h1, h2⟩
    · rename_i hi
      rw [List.idxOf?_eq_none_iff] at hi
      have hnd : ∀ b, ((us ++ [(x, b)]).map Prod.fst).Nodup := by
        intro b
        rw [List.map_append, List.nodup_append]
        refine ⟨hu.1.1, by simp, ?_⟩
        intro a ha c hc
        simp at hc; subst hc
        rintro rfl; exact hi ha
      have hsub : ∀ b, ∀ y ∈ (us ++ [(x, b)]).map Prod.fst, y ∈ sts := by
        intro b y hy
        rw [List.map_append, List.mem_append] at hy
        rcases hy with hy | hy
        · exact hu.1.2.1 y hy
        · simp at hy; subst hy; exact hx
      cases outer with
      | nil =>
        obtain ⟨blocks, st, rfl, h2, h3, h4⟩ := ho
        have hrest : rest = [] := by cases rest <;> simp at hl ⊢
        subst hrest
        have hg : scopeGet (blocks ++ [st]) x = Scope.get st x := by
          rw [scopeGet_append _ _ _ (not_mem_hid_get h4 hh), scopeGet_flatten]; simp
        rw [List.headD_cons, hg]
        cases hv : Scope.get st x with
        | none => rw [Scope.get_none, h2] at hv; exact absurd hx hv
        | some v =>
          obtain ⟨i, j, h5, h6, h7⟩ := h3.get hv
          have hsl : st.length = sts.length := by rw [← h2]; simp
          refine ⟨us ++ [(x, (getIndex v).setWidth 8)], [], rfl, by simp, ⟨⟨hnd _, hsub _, ?_⟩, trivial⟩, .cons (List.prefix_append _ _) .nil⟩
          intro q hq
          rcases List.mem_append.1 hq with hq | hq
          · exact hu.1.2.2 q hq
          · simp only [List.mem_singleton] at hq; subst hq
            refine ⟨i, j, by rw [← h2]; exact h5, by simp only; omega, by omega, ?_⟩
            rw [h7, setWidth_ofNat]
      | cons o2 outer =>
        obtain ⟨h1, h2⟩ := ho
        rw [List.headD_cons, not_mem_hid_get h1 hh]
        cases rest with
        | nil => simp at hl
        | cons u2 rest =>
          obtain ⟨us', rest', h3, h4, h5, h6⟩ := addUp_spec hst hx hh (o2 :: outer) u2 rest h2 (by simp at hl ⊢; omega) hu.2
          rw [List.tail_cons]
          dsimp only
          have hlt : (addUp (o2 :: outer) (u2 :: rest) x).1 < us'.length := by
            rw [List.getElem?_eq_some_iff] at h4
            simpa using h4.1
          have := h5.1.length
          refine ⟨_, us' :: rest', by rw [h3], by simp, ⟨⟨hnd _, hsub _, ?_⟩, h5⟩, .cons (List.prefix_append _ _) h6⟩
          intro q hq
          rcases List.mem_append.1 hq with hq | hq
          · exact (hu.1.mono h6).2.2 q hq
          · simp only [List.mem_singleton] at hq; subst hq
            exact ⟨_, h4, by omega, rfl⟩

theorem markUsed_spec {sts hid : List Name} {x : Name} (hh : x ∉ hid) : ∀ (outer : List (List Scope)) (used : List Bool), OutScopes sts hid outer →
    used.length + 1 = outer.length → markUsed outer used x = used
  | [], used, ho, hl => by simp at hl
  | [file], used, ho, hl => by
    have : used = [] := by cases used <;> simp at hl ⊢
    subst this; rfl
  | o :: o2 :: outer, used, ho, hl => by
    cases used with
    | nil => simp at hl
    | cons u used =>
      obtain ⟨h1, h2⟩ := ho
      rw [markUsed, not_mem_hid_get h1 hh]
      simp only [Option.isSome_none, Bool.false_eq_true, if_false]
      rw [markUsed_spec hh (o2 :: outer) used h2 (by simp at hl ⊢; omega)]

theorem inOuter_spec {sts hid : List Name} {x : Name} (hh : x ∉ hid) : ∀ (outer : List (List Scope)), OutScopes sts hid outer →
    (inOuter outer x = true ↔ x ∈ sts)
  | [], ho => ho.elim
  | [file], ho => by
    obtain ⟨blocks, st, rfl, h2, h3, h4⟩ := ho
    have hg : scopeGet (blocks ++ [st]) x = Scope.get st x := by
      rw [scopeGet_append _ _ _ (not_mem_hid_get h4 hh), scopeGet_flatten]; simp
    simp only [inOuter, List.any_cons, List.any_nil, Bool.or_false, hg]
    rw [← h2]
    constructor
    · intro h
      by_contra hc
      rw [← Scope.get_none] at hc
      simp [hc] at h
    · intro h
      cases hv : Scope.get st x with
      | none => rw [Scope.get_none] at hv; exact absurd h hv
      | some v => rfl
  | o :: o2 :: outer, ho => by
    obtain ⟨h1, h2⟩ := ho
    have := inOuter_spec hh (o2 :: outer) h2
    unfold inOuter at this ⊢
    rw [List.any_cons, not_mem_hid_get h1 hh]
    simpa using this

/-! ## The state of the compiler -/

/-- A place of the program: the local variables (without those of the file); the variables of the file; is it in a function?; are all the results of calls
taken?; the names that have to be avoided; is there a scope between the file and the place? -/
structure VEnv where
  loc : List Name
  sts : List Name
  infn : Bool
  m : Bool
  hid : List Name
  inner : Bool

/-- The names in the frame. -/
def VEnv.own (V : VEnv) : List Name := V.loc ++ if V.infn then [] else V.sts

/-- After declarations. -/
def VEnv.push (V : VEnv) (D : List Name) : VEnv := { V with loc := D ++ V.loc }

theorem VEnv.push_nil (V : VEnv) : V.push [] = V := rfl

theorem VEnv.own_push (V : VEnv) (D : List Name) : (V.push D).own = D ++ V.own := by
  unfold VEnv.own VEnv.push; rw [List.append_assoc]

/-- The scopes around the place. -/
def VPlace (s : FState) (V : VEnv) : Prop :=
  match V.infn with
  | false => s.outer = [] ∧ V.hid = [] ∧ ∃ blocks st, s.c.scopes = blocks ++ [st] ∧ st.map Prod.fst = V.sts ∧ (V.inner = true → blocks ≠ [])
  | true => OutScopes V.sts V.hid s.outer

/-- The state of the compiler at a place. -/
structure FRel (s : FState) (V : VEnv) : Prop where
  rep : ScRep s.c.scopes.flatten
  names : s.c.scopes.flatten.map Prod.fst = V.own
  ne : s.c.scopes ≠ []
  small : V.own.length ≤ 128
  ssmall : V.sts.length ≤ 128
  exp : s.expected = wants V.m
  pool : PoolOk s.c.globals s.c.pool
  hok : s.c.HOk
  upsR : UpsRel V.sts s.ups
  upsL : s.ups.length = s.outer.length
  used : s.used = List.replicate s.ups.length false
  place : VPlace s V

/-- What a visit adds: the code `c`, and variables with the names `D` in the innermost scope. -/
structure EExt (s s' : FState) (c : List Byte) (D : List Name) : Prop where
  grow : Grow s.c s'.c c
  outer : s'.outer = s.outer
  used : s'.used = s.used
  origin : s'.origin = s.origin
  ups : UpsGrow s.ups s'.ups
  log : s.log <+: s'.log
  scopes : ∃ sc scs ds, s.c.scopes = sc :: scs ∧ s'.c.scopes = (ds ++ sc) :: scs ∧ ds.map Prod.fst = D

theorem EExt.trans {s s1 s2 : FState} {c1 c2 : List Byte} {D1 D2 : List Name} (h1 : EExt s s1 c1 D1) (h2 : EExt s1 s2 c2 D2) :
    EExt s s2 (c1 ++ c2) (D2 ++ D1) := by
  refine ⟨h1.grow.trans h2.grow, h2.outer.trans h1.outer, h2.used.trans h1.used, h2.origin.trans h1.origin, h1.ups.trans h2.ups, h1.log.trans h2.log, ?_⟩
  obtain ⟨sc, scs, ds, a1, a2, a3⟩ := h1.scopes
  obtain ⟨sc', scs', ds', b1, b2, b3⟩ := h2.scopes
  rw [a2] at b1; cases b1
  exact ⟨sc, scs, ds' ++ ds, a1, by rw [b2]; simp, by simp [a3, b3]⟩

theorem EExt.len {s s' : FState} {c : List Byte} {D : List Name} (h : EExt s s' c D) : s'.len = s.len + c.length := by
  unfold FState.len; rw [h.grow.buffer]; simp

theorem EExt.scopes0 {s s' : FState} {c : List Byte} (h : EExt s s' c []) : s'.c.scopes = s.c.scopes := by
  obtain ⟨sc, scs, ds, a1, a2, a3⟩ := h.scopes
  rw [List.map_eq_nil_iff] at a3; subst a3
  rw [a2, a1]; rfl

/-- Code that changes nothing else. -/
theorem EExt.on {s : FState} {f : CState → CState} {c : List Byte} (h : Ext s.c (f s.c) c) (hne : s.c.scopes ≠ []) : EExt s (s.on f) c [] := by
  refine ⟨h.grow, rfl, rfl, rfl, UpsGrow.refl _, List.prefix_refl _, ?_⟩
  obtain ⟨sc, scs, hs⟩ := List.exists_cons_of_ne_nil hne
  exact ⟨sc, scs, [], hs, by simp [FState.on, h.scopes, hs], rfl⟩

theorem FRel.on {s : FState} {V : VEnv} (h : FRel s V) {f : CState → CState} {c : List Byte} (he : Ext s.c (f s.c) c) (hh : (f s.c).HOk) : FRel (s.on f) V := by
  have hs : (s.on f).c.scopes = s.c.scopes := he.scopes
  refine ⟨by rw [hs]; exact h.rep, by rw [hs]; exact h.names, by rw [hs]; exact h.ne, h.small, h.ssmall, h.exp, he.grow.poolOk h.pool, hh, h.upsR, h.upsL, h.used, ?_⟩
  have := h.place
  unfold VPlace at this ⊢
  rw [hs]; exact this

theorem FRel.op {s : FState} {V : VEnv} (h : FRel s V) (o : Opc) : FRel (s.op o) V := h.on (Ext.op _ o) (h.hok.op o)
theorem FRel.emit {s : FState} {V : VEnv} (h : FRel s V) (b : Byte) : FRel (s.emit b) V := h.on (Ext.emit _ b) h.hok
theorem FRel.jump {s : FState} {V : VEnv} (h : FRel s V) (o : Opc) : FRel (s.jump o) V := h.on (Ext.jump _ o) (h.hok.jump o)

/-- Only code, literals and checkpoints differ. -/
theorem FRel.of {s s' : FState} {V : VEnv} (h : FRel s V) (h1 : s'.c.scopes = s.c.scopes) (h2 : s'.c.globals = s.c.globals) (h3 : s'.c.pool = s.c.pool)
    (h4 : s'.c.header = s.c.header) (h5 : s'.outer = s.outer) (h6 : s'.ups = s.ups) (h7 : s'.used = s.used) (h8 : s'.expected = s.expected) : FRel s' V := by
  refine ⟨by rw [h1]; exact h.rep, by rw [h1]; exact h.names, by rw [h1]; exact h.ne, h.small, h.ssmall, by rw [h8]; exact h.exp,
    by rw [h2, h3]; exact h.pool, h.hok.of h3 h4, by rw [h6]; exact h.upsR, by rw [h6, h5]; exact h.upsL, by rw [h7, h6]; exact h.used, ?_⟩
  have := h.place
  unfold VPlace at this ⊢
  rw [h1, h5]; exact this

theorem FRel.patch {s : FState} {V : VEnv} (h : FRel s V) (i : Nat) : FRel (s.patch i) V := h.of rfl rfl rfl rfl rfl rfl rfl rfl

/-- What the rest of the compilation, and the program that is run, have to do with a state. -/
structure XOk (X : FX) (base : Nat) (s : FState) (infn : Bool) (U : Option (List Name)) : Prop where
  pool : s.c.pool <+: X.K
  small : X.K.length < 2 ^ 63
  codeLen : X.code.length < 2 ^ 63
  log : ∀ q ∈ s.log, X.label q.1 = q.2.map (base + ·)
  gs : ∀ x, X.gs x ↔ s.c.globals.get x ≠ none
  ups : match infn with
    | false => U = none
    | true => ∃ us rest names, s.ups = us :: rest ∧ U = some names ∧ us.map Prod.fst <+: names

theorem XOk.back {X : FX} {base : Nat} {s s' : FState} {infn : Bool} {U : Option (List Name)} {c : List Byte} {D : List Name} (h : XOk X base s' infn U)
    (he : EExt s s' c D) : XOk X base s infn U := by
  refine ⟨he.grow.prefix.trans h.pool, h.small, h.codeLen, fun q hq => h.log q (he.log.subset hq), fun x => by rw [h.gs, he.grow.globals], ?_⟩
  have := h.ups
  cases infn with
  | false => exact this
  | true =>
    obtain ⟨us, rest, names, h1, h2, h3⟩ := this
    have hu := he.ups
    rw [h1] at hu
    generalize s.ups = u0 at hu
    cases hu with
    | cons a b => exact ⟨_, _, names, rfl, h2, (a.map _).trans h3⟩

/-- What `s'` has after `s`: code for which `C` holds wherever it is. -/
def VRes (s s' : FState) (D : List Name) (V : VEnv) (C : FX → Nat → SEnv → Nat → Nat → Prop) : Prop :=
  ∃ c, EExt s s' c D ∧ FRel s' (V.push D) ∧ ∀ X base p U, XOk X base s' V.infn U → p = base + s.origin + s.len → p ≤ X.code.length → At X.code p c →
    C X base ⟨V.own, V.sts, U⟩ p (p + c.length)

theorem VRes.rel {s s' : FState} {V : VEnv} {C : FX → Nat → SEnv → Nat → Nat → Prop} (h : VRes s s' [] V C) : FRel s' V := by
  obtain ⟨c, _, h, _⟩ := h; exact h

theorem VRes.mono {s s' : FState} {D : List Name} {V : VEnv} {C C' : FX → Nat → SEnv → Nat → Nat → Prop} (h : VRes s s' D V C)
    (hc : ∀ X base U p q, C X base ⟨V.own, V.sts, U⟩ p q → C' X base ⟨V.own, V.sts, U⟩ p q) : VRes s s' D V C' := by
  obtain ⟨c, h1, h2, h3⟩ := h
  exact ⟨c, h1, h2, fun X base p U hx hp hl ha => hc _ _ _ _ _ (h3 X base p U hx hp hl ha)⟩

theorem VRes.seq {s s1 s2 : FState} {D : List Name} {V : VEnv} {C1 C2 C : FX → Nat → SEnv → Nat → Nat → Prop} (h1 : VRes s s1 [] V C1)
    (h2 : FRel s1 V → VRes s1 s2 D V C2) (hc : ∀ X base U p p1 q, C1 X base ⟨V.own, V.sts, U⟩ p p1 → C2 X base ⟨V.own, V.sts, U⟩ p1 q → C X base ⟨V.own, V.sts, U⟩ p q) :
    VRes s s2 D V C := by
  obtain ⟨c1, e1, r1, k1⟩ := h1
  obtain ⟨c2, e2, r2, k2⟩ := h2 r1
  refine ⟨c1 ++ c2, by simpa using e1.trans e2, r2, ?_⟩
  intro X base p U hx hp hl ha
  have hl1 := ha.left.length_le hl
  have := hc X base _ p (p + c1.length) _ (k1 X base p U (hx.back e2) hp hl ha.left) (k2 X base (p + c1.length) U hx (by rw [e1.origin, e1.len]; omega) hl1 ha.right)
  simpa [Nat.add_assoc] using this

/-- Code without further effects. -/
theorem VRes.on {s : FState} {V : VEnv} {f : CState → CState} {c : List Byte} (h : FRel s V) (he : Ext s.c (f s.c) c) (hh : (f s.c).HOk) :
    VRes s (s.on f) [] V (fun X _ _ p q => At X.code p c ∧ q = p + c.length) :=
  ⟨c, EExt.on he h.ne, h.on he hh, fun _ _ _ _ _ _ _ ha => ⟨ha, rfl⟩⟩

theorem VRes.op {s : FState} {V : VEnv} (h : FRel s V) (o : Opc) : VRes s (s.op o) [] V (fun X _ _ p q => At X.code p [o.byte] ∧ q = p + 1) :=
  VRes.on h (Ext.op _ o) (h.hok.op o)

theorem VRes.emit {s : FState} {V : VEnv} (h : FRel s V) (b : Byte) : VRes s (s.emit b) [] V (fun X _ _ p q => At X.code p [b] ∧ q = p + 1) :=
  VRes.on h (Ext.emit _ b) h.hok

end Yasl
