import Batteries.Tactic.Init
import Verif.Model.Export
import Verif.Props.Parser
import Verif.Spec.Export
set_option autoImplicit false
/-!
# C125: `export` only at the top level
-/
namespace Yasl

/-- The context of a part. -/
def stepC (c : XC) : WStep → XC
  | .fn => c.fn
  | .block => c.enter
  | .plain => c

theorem xvs_nil {ora : List Nat → Bool} {c : XC} : ∀ {es : List Node} {p : List Nat}, xvs ora c p es = [] → ∀ e ∈ es, ∃ p', xv ora c p' e = []
  | [], _, _, _, h => by cases h
  | n :: ns, p, h, e, he => by
    rw [xvs, List.append_eq_nil_iff] at h
    rcases List.mem_cons.1 he with rfl | he
    · exact ⟨_, h.1⟩
    · exact xvs_nil h.2 e he

theorem xvg_nil {ora : List Nat → Bool} {c : XC} : ∀ {es : List (Option Node)} {p : List Nat}, xvg ora c p es = [] → ∀ e, some e ∈ es → ∃ p', xv ora c p' e = []
  | [], _, _, _, h => by cases h
  | n :: ns, p, h, e, he => by
    rw [xvg, List.append_eq_nil_iff] at h
    rcases List.mem_cons.1 he with rfl | he
    · exact ⟨_, by simpa [xvo] using h.1⟩
    · exact xvg_nil h.2 e he

theorem xvb_nil {ora : List Nat → Bool} {c : XC} : ∀ {bs : List (List Node)} {p : List Nat}, xvb ora c p bs = [] → ∀ b ∈ bs, ∀ e ∈ b, ∃ p', xv ora c p' e = []
  | [], _, _, _, h => by cases h
  | n :: ns, p, h, b, hb => by
    rw [xvb, List.append_eq_nil_iff] at h
    rcases List.mem_cons.1 hb with rfl | hb
    · exact xvs_nil h.1
    · exact xvb_nil h.2 b hb

theorem xvl_nil {ora : List Nat → Bool} {c : XC} : ∀ {ls : List Node} {p : List Nat}, xvl ora c p ls = [] → ∀ a k v, Node.set a k v ∈ ls →
    (∃ p', xv ora c p' a = []) ∧ ∃ p', xv ora c p' k = []
  | [], _, _, _, _, _, h => by cases h
  | n :: ns, p, h, a, k, v, he => by
    rcases List.mem_cons.1 he with rfl | he
    · rw [xvl, List.append_eq_nil_iff, List.append_eq_nil_iff] at h
      exact ⟨⟨_, h.1.1⟩, _, h.1.2⟩
    · have : xvl ora c (1 :: p) ns = [] := by
        cases n <;> rw [xvl] at h
        case set => rw [List.append_eq_nil_iff] at h; exact h.2
        all_goals first | (by_cases ho : ora p = true <;> simp_all; done)
      exact xvl_nil this a k v he

theorem xv_const {ora : List Nat → Bool} {c : XC} {p : List Nat} {n : Node} (h : n.xConst = true) : xv ora c p n = [] := by
  cases n <;> first | rfl | (simp [Node.xConst] at h; done)

/-- Every part of an accepted node is accepted. -/
theorem xv_sub {ora : List Nat → Bool} {c : XC} {p : List Nat} {n m : Node} {s : WStep} (hs : Part n s m) (h : xv ora c p n = []) :
    ∃ p', xv ora (stepC c s) p' m = [] := by
  cases hs <;> (try rw [xv] at h) <;> simp only [stepC]
  case un | variadic | exprStmt | echo | assert | letIter => exact ⟨_, h⟩
  case list hm | table hm | block hm => exact xvs_nil h _ hm
  case fn hm => exact xvs_nil (List.append_eq_nil_iff.1 h).2 _ hm
  case callA hm | mcallA hm | tcE hm => exact xvs_nil (List.append_eq_nil_iff.1 h).2 _ hm
  case declR hm => exact xvs_nil (List.append_eq_nil_iff.1 h).1 _ hm
  case declC hm => exact (xvl_nil (List.append_eq_nil_iff.1 h).2 _ _ _ hm).1
  case declK hm => exact (xvl_nil (List.append_eq_nil_iff.1 h).2 _ _ _ hm).2
  case export_ => split at h; exacts [(by simp at h), ⟨_, h⟩]
  case ret => split at h; exacts [⟨_, h⟩, (by simp at h)]
  case multiRet hm => split at h; exacts [xvs_nil h _ hm, (by simp at h)]
  case let_ | const_ | assign => split at h <;> simp_all [xvo]; exact ⟨_, h⟩
  case whileC | ifC =>
    split at h
    · rename_i hc; exact ⟨[], xv_const hc⟩
    · simp only [List.append_eq_nil_iff] at h
      first | exact ⟨_, h.1.2⟩ | exact ⟨_, h.1.1⟩
  case whileB | ifT =>
    split at h <;> simp only [List.append_eq_nil_iff] at h
    · exact ⟨_, h.1⟩
    · first | exact ⟨_, h.1.2⟩ | exact ⟨_, h.2⟩
  case whileP | ifE =>
    split at h <;> simp only [List.append_eq_nil_iff, xvo] at h
    · exact ⟨_, h.2⟩
    · first | exact ⟨_, h.2⟩ | exact ⟨_, h.1.1⟩
  case matchG hm => simp only [List.append_eq_nil_iff] at h; exact xvg_nil h.1.2 _ hm
  case matchB hb hm => simp only [List.append_eq_nil_iff] at h; exact xvb_nil h.2 _ hb _ hm
  all_goals
    simp only [List.append_eq_nil_iff, xvo] at h
    first | exact ⟨_, h.1⟩ | exact ⟨_, h.2⟩ | exact ⟨_, h.1.1⟩ | exact ⟨_, h.1.2⟩ | exact ⟨_, h.1.1.1⟩ | exact ⟨_, h.1.1.2⟩

theorem xvs_mem {ora : List Nat → Bool} {c : XC} {x : XErr} : ∀ {es : List Node} {p : List Nat}, x ∈ xvs ora c p es → ∃ e ∈ es, ∃ p', x ∈ xv ora c p' e
  | [], _, h => by simp [xvs] at h
  | n :: ns, p, h => by
    rw [xvs, List.mem_append] at h
    rcases h with h | h
    · exact ⟨n, List.mem_cons_self .., _, h⟩
    · obtain ⟨e, he, r⟩ := xvs_mem h; exact ⟨e, List.mem_cons_of_mem _ he, r⟩

theorem xvg_mem {ora : List Nat → Bool} {c : XC} {x : XErr} : ∀ {es : List (Option Node)} {p : List Nat}, x ∈ xvg ora c p es →
    ∃ e, some e ∈ es ∧ ∃ p', x ∈ xv ora c p' e
  | [], _, h => by simp [xvg] at h
  | n :: ns, p, h => by
    rw [xvg, List.mem_append] at h
    rcases h with h | h
    · cases n with
      | none => simp [xvo] at h
      | some e => exact ⟨e, List.mem_cons_self .., _, by simpa [xvo] using h⟩
    · obtain ⟨e, he, r⟩ := xvg_mem h; exact ⟨e, List.mem_cons_of_mem _ he, r⟩

theorem xvb_mem {ora : List Nat → Bool} {c : XC} {x : XErr} : ∀ {bs : List (List Node)} {p : List Nat}, x ∈ xvb ora c p bs →
    ∃ b ∈ bs, ∃ e ∈ b, ∃ p', x ∈ xv ora c p' e
  | [], _, h => by simp [xvb] at h
  | b :: bs, p, h => by
    rw [xvb, List.mem_append] at h
    rcases h with h | h
    · exact ⟨b, List.mem_cons_self .., xvs_mem h⟩
    · obtain ⟨b', hb, r⟩ := xvb_mem h; exact ⟨b', List.mem_cons_of_mem _ hb, r⟩

theorem xvl_mem {ora : List Nat → Bool} {c : XC} {x : XErr} (hx : x ≠ .other) : ∀ {ls : List Node} {p : List Nat}, x ∈ xvl ora c p ls →
    ∃ a k v, Node.set a k v ∈ ls ∧ ((∃ p', x ∈ xv ora c p' a) ∨ ∃ p', x ∈ xv ora c p' k)
  | [], _, h => by simp [xvl] at h
  | n :: ns, p, h => by
    have key : x ∈ xvl ora c (1 :: p) ns → ∃ a k v, Node.set a k v ∈ n :: ns ∧ ((∃ p', x ∈ xv ora c p' a) ∨ ∃ p', x ∈ xv ora c p' k) := fun h => by
      obtain ⟨a, k, v, he, r⟩ := xvl_mem hx h
      exact ⟨a, k, v, List.mem_cons_of_mem _ he, r⟩
    cases n <;> rw [xvl] at h
    case set a k v =>
      simp only [List.mem_append] at h
      rcases h with (h | h) | h
      · exact ⟨a, k, v, List.mem_cons_self .., .inl ⟨_, h⟩⟩
      · exact ⟨a, k, v, List.mem_cons_self .., .inr ⟨_, h⟩⟩
      · exact key h
    all_goals first | (intro a k v h; cases h; done) | (split at h; exacts [(absurd (by simpa using h) hx), key h])

theorem xOth_mem {ora : List Nat → Bool} {p : List Nat} : XErr.export_ ∉ xOth ora p := by
  rw [xOth]; split <;> simp

/-- An error about `export` is reported at an `export`, or in a part. -/
theorem xv_mem {ora : List Nat → Bool} {c : XC} {p : List Nat} {n : Node} (h : XErr.export_ ∈ xv ora c p n) :
    (∃ e, n = .export_ e ∧ (c.inFn = true ∨ 2 ≤ c.depth)) ∨ ∃ s m p', Part n s m ∧ XErr.export_ ∈ xv ora (stepC c s) p' m := by
  have P : ∀ {m : Node} {p' : List Nat}, Part n .plain m → XErr.export_ ∈ xv ora c p' m →
      (∃ e, n = .export_ e ∧ (c.inFn = true ∨ 2 ≤ c.depth)) ∨ ∃ s m p', Part n s m ∧ XErr.export_ ∈ xv ora (stepC c s) p' m :=
    fun h1 h2 => .inr ⟨.plain, _, _, h1, h2⟩
  have B : ∀ {m : Node} {p' : List Nat}, Part n .block m → XErr.export_ ∈ xv ora c.enter p' m →
      (∃ e, n = .export_ e ∧ (c.inFn = true ∨ 2 ≤ c.depth)) ∨ ∃ s m p', Part n s m ∧ XErr.export_ ∈ xv ora (stepC c s) p' m :=
    fun h1 h2 => .inr ⟨.block, _, _, h1, h2⟩
  cases n <;> rw [xv] at h <;> try simp only [List.mem_append, xOth_mem, or_false] at h
  case un => exact P .un h
  case bin => rcases h with h | h; exacts [P .binL h, P .binR h]
  case tri => rcases h with ((h | h) | h) | h; exacts [P .tri0 h, P .tri0 h, P .tri1 h, P .tri2 h]
  case list => obtain ⟨e, he, _, h⟩ := xvs_mem h; exact P (.list he) h
  case table => obtain ⟨e, he, _, h⟩ := xvs_mem h; exact P (.table he) h
  case listComp e it cond =>
    rcases h with (h | h) | h
    · exact B .lcIt h
    · cases cond with
      | none => simp [xvo] at h
      | some k => exact B .lcC h
    · exact B .lcE h
  case tableComp kv it cond =>
    rcases h with (h | h) | h
    · exact B .tcIt h
    · cases cond with
      | none => simp [xvo] at h
      | some k => exact B .tcC h
    · obtain ⟨e, he, _, h⟩ := xvs_mem h; exact B (.tcE he) h
  case get => rcases h with h | h; exacts [P .getC h, P .getK h]
  case slice => rcases h with (h | h) | h; exacts [P .slice0 h, P .slice1 h, P .slice2 h]
  case call =>
    rcases h with h | h
    · exact P .callF h
    · obtain ⟨e, he, _, h⟩ := xvs_mem h; exact P (.callA he) h
  case mcall =>
    rcases h with h | h
    · exact P .mcallO h
    · obtain ⟨e, he, _, h⟩ := xvs_mem h; exact P (.mcallA he) h
  case variadic => exact P .variadic h
  case fn =>
    simp only [false_or] at h
    obtain ⟨e, he, _, h⟩ := xvs_mem h; exact .inr ⟨.fn, _, _, .fn he, h⟩
  case set a k v =>
    rcases h with (h | h) | h
    · exact P .setC h
    · exact P .setK h
    · cases v with
      | none => simp [xvo] at h
      | some v => exact P .setV h
  case exprStmt => exact P .exprStmt h
  case echo => exact P .echo h
  case assert => exact P .assert h
  case export_ e =>
    split at h
    · rename_i hc; exact .inl ⟨e, rfl, by simpa using hc⟩
    · exact P .export_ h
  case ret => split at h; exacts [P .ret h, (by simp at h)]
  case multiRet =>
    split at h
    · obtain ⟨e, he, _, h⟩ := xvs_mem h; exact P (.multiRet he) h
    · simp at h
  case decl =>
    rcases h with h | h
    · obtain ⟨e, he, _, h⟩ := xvs_mem h; exact P (.declR he) h
    · obtain ⟨a, k, v, he, ⟨_, h⟩ | ⟨_, h⟩⟩ := xvl_mem (by simp) h
      exacts [P (.declC he) h, P (.declK he) h]
  case let_ x e =>
    split at h
    · simp at h
    · cases e with
      | none => simp [xvo] at h
      | some e => exact P .let_ h
  case const_ x e =>
    split at h
    · simp at h
    · cases e with
      | none => simp [xvo] at h
      | some e => exact P .const_ h
  case assign x e =>
    split at h
    · simp at h
    · cases e with
      | none => simp [xvo] at h
      | some e => exact P .assign h
  case letIter => exact P .letIter h
  case forIter => rcases h with h | h; exacts [B .forI h, B .forB h]
  case while_ cond body post =>
    have hp : XErr.export_ ∈ xvo ora c (2 :: p) post → (∃ e, Node.while_ cond body post = .export_ e ∧ (c.inFn = true ∨ 2 ≤ c.depth)) ∨
        ∃ s m p', Part (.while_ cond body post) s m ∧ XErr.export_ ∈ xv ora (stepC c s) p' m := fun h => by
      cases post with
      | none => simp [xvo] at h
      | some e => exact P .whileP h
    split at h <;> simp only [List.mem_append] at h
    · rcases h with h | h; exacts [P .whileB h, hp h]
    · rcases h with (h | h) | h; exacts [hp h, P .whileC h, P .whileB h]
  case if_ cond t e =>
    have hp : XErr.export_ ∈ xvo ora c (2 :: p) e → (∃ e', Node.if_ cond t e = .export_ e' ∧ (c.inFn = true ∨ 2 ≤ c.depth)) ∨
        ∃ s m p', Part (.if_ cond t e) s m ∧ XErr.export_ ∈ xv ora (stepC c s) p' m := fun h => by
      cases e with
      | none => simp [xvo] at h
      | some e => exact P .ifE h
    split at h <;> simp only [List.mem_append] at h
    · rcases h with h | h; exacts [P .ifT h, hp h]
    · rcases h with (h | h) | h; exacts [P .ifC h, P .ifT h, hp h]
  case match_ =>
    rcases h with (h | h) | h
    · exact P .matchE h
    · obtain ⟨e, he, _, h⟩ := xvg_mem h; exact B (.matchG he) h
    · obtain ⟨b, hb, e, he, _, h⟩ := xvb_mem h; exact B (.matchB hb he) h
  case block => obtain ⟨e, he, _, h⟩ := xvs_mem h; exact B (.block he) h
  all_goals first | (simp at h; done) | exact absurd h xOth_mem

theorem Part.size {n m : Node} {s : WStep} (h : Part n s m) : sizeOf m < sizeOf n := by
  have S : ∀ {es : List Node} {e : Node}, e ∈ es → sizeOf e < sizeOf es := fun h => List.sizeOf_lt_of_mem h
  cases h
  case matchG hm => have := List.sizeOf_lt_of_mem hm; simp at this ⊢; omega
  case matchB hb hm => have h1 := List.sizeOf_lt_of_mem hb; have h2 := S hm; simp; omega
  case declC hm => have := S hm; simp at this ⊢; omega
  case declK hm => have := S hm; simp at this ⊢; omega
  case list hm | table hm | tcE hm | callA hm | mcallA hm | fn hm | multiRet hm | declR hm | block hm => have := S hm; simp; omega
  all_goals (simp; try omega)

/-- The context at the end of a path. -/
def pathC (c : XC) : List WStep → XC
  | [] => c
  | s :: path => pathC (stepC c s) path

theorem pathC_inFn (c : XC) (path : List WStep) : (pathC c path).inFn = true ↔ c.inFn = true ∨ .fn ∈ path := by
  induction path generalizing c with
  | nil => simp [pathC]
  | cons s path ih =>
    rw [pathC, ih]
    cases s <;> simp [stepC, XC.fn, XC.enter]
    split <;> simp

theorem pathC_depth (c : XC) (path : List WStep) (h : (pathC c path).inFn = false) : (pathC c path).depth = c.depth + path.count .block := by
  induction path generalizing c with
  | nil => simp [pathC]
  | cons s path ih =>
    rw [pathC] at h ⊢
    rw [ih _ h]
    have hf : (stepC c s).inFn = false := by
      have := pathC_inFn (stepC c s) path
      rw [h] at this
      simp at this
      exact this.1
    cases s <;> simp [stepC, XC.fn, XC.enter] at hf ⊢
    rw [if_neg (by split at hf <;> simp_all)]
    simp; omega

theorem inside_nil {ora : List Nat → Bool} {n k : Node} {path : List WStep} (h : Within n path k) :
    ∀ {c : XC} {p : List Nat}, xv ora c p n = [] → ∃ p', xv ora (pathC c path) p' k = [] := by
  induction h with
  | here n => exact fun h => ⟨_, h⟩
  | step hs _ ih => exact fun h => by obtain ⟨p', h⟩ := xv_sub hs h; exact ih h

theorem inside_mem {ora : List Nat → Bool} {c : XC} {p : List Nat} {n : Node} (h : XErr.export_ ∈ xv ora c p n) :
    ∃ path e, Within n path (.export_ e) ∧ ((pathC c path).inFn = true ∨ 2 ≤ (pathC c path).depth) := by
  rcases xv_mem h with ⟨e, rfl, h0⟩ | ⟨s, m, p', hs, h⟩
  · exact ⟨[], e, .here _, h0⟩
  · have := hs.size
    obtain ⟨path, e, h1, h2⟩ := inside_mem h
    exact ⟨s :: path, e, .step hs h1, h2⟩
termination_by sizeOf n

theorem errs_nil {ora : List Nat → Bool} {d : Nat} {ss : List Node} (h : xvs ora ⟨false, d⟩ [] ss = []) {path : List WStep} (he : ExportAt ss path) :
    .fn ∉ path ∧ d + path.count .block ≤ 1 := by
  obtain ⟨s, hs, e, he⟩ := he
  obtain ⟨p', h⟩ := xvs_nil h s hs
  obtain ⟨p', h⟩ := inside_nil he h
  rw [xv] at h
  split at h
  · simp at h
  · rename_i hc
    simp only [Bool.or_eq_true, decide_eq_true_eq, not_or, Bool.not_eq_true, Nat.not_le] at hc
    have h1 := pathC_inFn ⟨false, d⟩ path
    rw [hc.1] at h1
    have h2 := pathC_depth ⟨false, d⟩ path hc.1
    simp at h1 h2
    exact ⟨h1, by omega⟩

theorem errs_mem {ora : List Nat → Bool} {d : Nat} {ss : List Node} (h : XErr.export_ ∈ xvs ora ⟨false, d⟩ [] ss) :
    ∃ path, ExportAt ss path ∧ (.fn ∈ path ∨ 2 ≤ d + path.count .block) := by
  obtain ⟨s, hs, p', h⟩ := xvs_mem h
  obtain ⟨path, e, h1, h2⟩ := inside_mem h
  refine ⟨path, ⟨s, hs, e, h1⟩, ?_⟩
  by_cases hf : (pathC ⟨false, d⟩ path).inFn = true
  · have := (pathC_inFn ⟨false, d⟩ path).1 hf
    simp at this
    exact .inl this
  · have h3 := pathC_depth ⟨false, d⟩ path (by simpa using hf)
    simp only [Bool.not_eq_true] at hf
    rw [hf] at h2
    simp at h2
    simp at h3
    exact .inr (by omega)

/-- C125, files: in a text that is accepted, every `export` is at the top level, whatever else is refused or not. -/
theorem C125_file (ora : List Nat → Bool) (ss : List Node) (h : compileErrs ora ss = []) (path : List WStep) (he : ExportAt ss path) : AtTop path := by
  have := errs_nil (d := 1) h he
  exact ⟨this.1, fun hm => by have := List.count_pos_iff.2 hm; omega⟩

/-- C125, files: and a text with every `export` at the top level is not refused because of them. -/
theorem C125_file_accepted (ora : List Nat → Bool) (ss : List Node) (h : ∀ path, ExportAt ss path → AtTop path) : XErr.export_ ∉ compileErrs ora ss := by
  intro hm
  obtain ⟨path, he, h1⟩ := errs_mem (d := 1) hm
  have := h path he
  rcases h1 with h1 | h1
  · exact this.1 h1
  · have h2 := List.count_eq_zero.2 this.2
    omega

/-- C125, what holds at the prompt: an `export` that is accepted is in no function and in at most one block. -/
theorem C125_prompt_partial (ora : List Nat → Bool) (ss : List Node) (h : replErrs ora ss = []) (path : List WStep) (he : ExportAt ss path) :
    .fn ∉ path ∧ path.count .block ≤ 1 := by
  have := errs_nil (d := 0) h he
  exact ⟨this.1, by omega⟩

/-- C125: and those are not refused. -/
theorem C125_prompt_accepted (ora : List Nat → Bool) (ss : List Node) (h : ∀ path, ExportAt ss path → .fn ∉ path ∧ path.count .block ≤ 1) :
    XErr.export_ ∉ replErrs ora ss := by
  intro hm
  obtain ⟨path, he, h1⟩ := errs_mem (d := 0) hm
  have := h path he
  rcases h1 with h1 | h1
  · exact this.1 h1
  · omega

/-- C125, `return`: in a text that is accepted, in a file or at the prompt, every `return` is in a function. -/
theorem C125_return (ora : List Nat → Bool) (ss : List Node) (h : compileErrs ora ss = [] ∨ replErrs ora ss = []) (s : Node) (hs : s ∈ ss) (path : List WStep)
    (n : Node) (hn : (∃ e, n = .ret e) ∨ ∃ es, n = .multiRet es) (he : Within s path n) : .fn ∈ path := by
  have key : ∀ d, xvs ora ⟨false, d⟩ [] ss = [] → .fn ∈ path := fun d h => by
    obtain ⟨p', h⟩ := xvs_nil h s hs
    obtain ⟨p', h⟩ := inside_nil he h
    by_cases hf : (pathC ⟨false, d⟩ path).inFn = true
    · have := (pathC_inFn ⟨false, d⟩ path).1 hf
      simpa using this
    · rcases hn with ⟨e, rfl⟩ | ⟨es, rfl⟩ <;> rw [xv, if_neg hf] at h <;> simp at h
  exact h.elim (key 1) (key 0)

/-- `if true { export 1; }` -/
def exportText : List Byte := word "if true { export 1; }\n"

def exportTree : List Node := [.if_ (.bool true) (.block [.export_ (.int 1)]) none]

theorem exportText_tokens : (tokensOf exportText).1 = [.op .if_, .word .bool (word "true"), .op .lbrc, .op .export_, .word .int (word "1"), .sep .semi false, .op .rbrc,
    .sep .semi true] ∧ (tokensOf exportText).2.type = .eof := by decide +kernel

theorem exportText_gram : ∃ ts, TextItems exportText ts ∧ Gram (fun _ => 0) some .stmts ts exportTree := by
  suffices h : Gram (fun _ => 0) some .stmts (tokensOf exportText).1 exportTree from
    ⟨_, (textItems_plain (by decide +kernel) (FirstPlain.gram h)).2 ⟨rfl, exportText_tokens.2⟩, h⟩
  rw [exportText_tokens.1]
  have i1 : Gram (fun _ => 0) some .expr [.word .int (word "1")] (.int 1) := by
    have h := Gram.int (flt := fun _ => 0) (fold := some) (v := word "1")
    rw [show getInt (word "1") = 1#64 by decide +kernel] at h
    exact .expr (.ternOne (h.atomTo.unaryTo 0 (by omega))) rfl
  have b : Gram (fun _ => 0) some .expr [.word .bool (word "true")] (.bool true) := .expr (.ternOne (Gram.bool.atomTo.unaryTo 0 (by omega))) rfl
  exact .stmts (nl := true) (.if_ (.ifEnd b (.body (.stmts (nl := false) (.export_ i1) .stmtsEnd)))) .stmtsEnd

/-- The way to that `export`. -/
theorem exportTree_path : ExportAt exportTree [.plain, .block] :=
  ⟨_, List.mem_singleton.2 rfl, .int 1, .step .ifT (.step (.block (List.mem_singleton.2 rfl)) (.here _))⟩

/-- C125 is false at the prompt: `if true { export 1; }` is accepted there, though the `export` is in a block; a file with this text is refused. -/
theorem C125_counterexample : (∃ ts, TextItems exportText ts ∧ Gram (fun _ => 0) some .stmts ts exportTree) ∧
    (ExportAt exportTree [.plain, .block] ∧ ¬ AtTop [.plain, .block]) ∧
    replErrs (fun _ => false) exportTree = [] ∧ compileErrs (fun _ => false) exportTree = [.export_] := by
  refine ⟨exportText_gram, ⟨exportTree_path, fun h => h.2 (by simp)⟩, by rfl, by rfl⟩

/-- A file with an `export` at the top level, in a program with functions and blocks, is accepted: `let f = fn() { if x { return 1; } }; export f` -/
def exportDemo : List Node := [.decl [.let_ (word "f") none] [.fn [] [.if_ (.var (word "x")) (.block [.ret (.int 1)]) none] none], .export_ (.var (word "f"))]

/-- the hypothesis of `C125_file` is met, by a program with an `export` -/
example : compileErrs (fun _ => false) exportDemo = [] ∧ ExportAt exportDemo [] :=
  ⟨by rfl, _, List.mem_cons_of_mem _ (List.mem_singleton.2 rfl), _, .here _⟩

/-- the hypothesis of `C125_file_accepted` is met by that program: it has no other `export` -/
example : ∀ path, ExportAt exportDemo path → AtTop path := fun path h => C125_file (fun _ => false) exportDemo (by rfl) path h

/-- the hypotheses of `C125_return` are met by the `return` of that program -/
example : ∃ s ∈ exportDemo, ∃ path, Within s path (.ret (.int 1)) :=
  ⟨_, List.mem_cons_self .., [.plain, .fn, .plain, .block], .step (.declR (List.mem_singleton.2 rfl)) (.step (.fn (List.mem_singleton.2 rfl))
    (.step .ifT (.step (.block (List.mem_singleton.2 rfl)) (.here _))))⟩

/-- an `export` in a function is refused, in a file and at the prompt, even if the function is in code that is never run -/
example : compileErrs (fun _ => false) [.if_ (.bool false) (.block [.exprStmt (.fn [] [.export_ (.int 1)] none)]) none] = [.export_] ∧
    replErrs (fun _ => false) [.while_ (.bool false) (.block [.exprStmt (.fn [] [.export_ (.int 1)] none)]) none] = [.export_] := ⟨by rfl, by rfl⟩

/-- the hypotheses of the theorems on the prompt are met by the program of the counterexample -/
example : replErrs (fun _ => false) exportTree = [] ∧ ∀ path, ExportAt exportTree path → .fn ∉ path ∧ path.count .block ≤ 1 :=
  ⟨by rfl, fun path h => C125_prompt_partial (fun _ => false) exportTree (by rfl) path h⟩

end Yasl
