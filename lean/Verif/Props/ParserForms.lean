import Verif.Props.ParserEnd
set_option autoImplicit false
/-!
# C89–C91 — augmented assignment, assignment to several places, strings with embedded expressions
-/
namespace Yasl

/-! ## C89: augmented assignment -/

section
variable {flt : List Byte → BitVec 64} {fold : Node → Option Node}

/-- A name is not followed by a comma. -/
def NoComma : Cat → List TextItem → Prop
  | .post, ts | .atom, ts | .string, ts => ∀ x r, ts ≠ .word .id x :: .op .comma :: r
  | _, _ => True

theorem NoComma.append {ts us : List TextItem} {t : Tok} (hi : t ≠ .comma) (h : NoComma .post ts) : NoComma .post (ts ++ .op t :: us) := by
  intro x r e
  match ts, h with
  | [], h => simp at e
  | [a], _ => simp at e; exact hi e.2.1
  | a :: b :: ts, h => simp only [List.cons_append, List.cons.injEq] at e; exact h x ts (by rw [e.1, e.2.1])

theorem gram_noComma {c : Cat} {ts : List TextItem} {r : c.Res} (h : Gram flt fold c ts r) : NoComma c ts := by
  induction h with
  | postOne _ ih => exact ih
  | call _ _ ih _ => exact ih.append (by decide)
  | mcall _ _ _ ih _ _ => exact ih.append (by decide)
  | dot _ _ ih _ => exact ih.append (by decide)
  | dotCall _ _ ih _ => exact ih.append (by decide)
  | index _ _ ih _ => exact ih.append (by decide)
  | slice _ _ _ ih _ _ => exact ih.append (by decide)
  | sliceFrom _ _ ih _ => exact ih.append (by decide)
  | sliceTo _ _ ih _ => exact ih.append (by decide)
  | sliceAll _ ih => exact ih.append (by decide)
  | string _ ih => exact ih
  | _ => first | trivial | (intro x r e; simp at e)

theorem aug_levels : ∀ p ∈ augmentedOps, p.1 ≠ .comma ∧ (p.2 = .dstar ∨ ∃ k ∈ List.range 12, ∃ l ∈ operatorLevels[k]?, p.2 ∈ l.2) := by decide

/-- `X o (E)` is an operation of `X` and `E`. -/
theorem Gram.opParen {X T : List TextItem} {a e : Node} {t o : Tok} (ho : (t, o) ∈ augmentedOps) (hX : Gram flt some .post X a) (hT : Gram flt some .expr T e) :
    Gram flt some .expr (X ++ .op o :: .op .lpar :: (T ++ [.op .rpar])) (.bin o a e) := by
  rcases (aug_levels _ ho).2 with h | ⟨k, hk, ⟨as, ts⟩, h⟩
  · dsimp only at h; subst h
    exact Gram.toExpr (Gram.unaryTo (.unaryOne (.power hX (Gram.paren hT).atomTo)) 0 (by omega))
  · rw [List.mem_range] at hk
    refine Gram.toExpr (Gram.down (k := k) ?_ (by omega) (by omega))
    cases as with
    | left => exact .binLeft ⟨ts, h⟩ (hX.postTo.unaryTo k (by omega)) ((Gram.paren hT).atomTo.unaryTo (k + 1) (by omega))
    | right => exact .binRight ⟨ts, h⟩ (hX.postTo.unaryTo (k + 1) (by omega)) ((Gram.paren hT).atomTo.unaryTo k (by omega))
end

/-- A statement `X t E` for an assignment token `t`. -/
theorem simple_of {flt : List Byte → BitVec 64} {X T : List TextItem} {a n : Node} {t : Tok} (hX : Gram flt some .post X a) (hf : ∀ r, X ≠ .op .fn :: r) (ht : t ≠ .comma)
    (h : Gram flt some .simple (X ++ .op t :: T) n) : Gram flt some .stmt (X ++ .op t :: T) n := by
  refine .simple ?_ (NoComma.append ht (gram_noComma hX)) h
  intro r e
  obtain ⟨i, rest, rfl, -, -⟩ : AtomCat .post X := atom_starts hX
  simp only [List.cons_append, List.cons.injEq] at e
  exact hf rest (by rw [e.1])

/-- C89: `X t= E` and `X = X o (E)` are the same program, for every augmented assignment `t=` with the operator `o`; `X` is a variable. -/
theorem C89_augmented_variable (flt : List Byte → BitVec 64) (src src' : List Byte) (X T : List TextItem) (x : Name) (e : Node) (t o : Tok) (n1 n2 : Bool)
    (ho : (t, o) ∈ augmentedOps) (hX : Gram flt some .post X (.var x)) (hf : ∀ r, X ≠ .op .fn :: r) (hT : Gram flt some .expr T e)
    (hs : TextItems src (X ++ .op t :: (T ++ [.sep .semi n1])))
    (hs' : TextItems src' (X ++ .op .eq :: (X ++ .op o :: .op .lpar :: (T ++ [.op .rpar, .sep .semi n2])))) :
    parseSource ⟨flt, some⟩ src = some (.accepted [.assign x (some (.bin o (.var x) e))]) ∧ parseSource ⟨flt, some⟩ src' = parseSource ⟨flt, some⟩ src := by
  have hx : Gram flt some .expr X (.var x) := Gram.toExpr (hX.postTo.unaryTo 0 (by omega))
  have h1 := parse_one (cfg := ⟨flt, some⟩) (src := src) (ts := X ++ .op t :: T) (nl := n1) (by simpa using hs)
    (simple_of hX hf (aug_levels _ ho).1 (.augAssign ho hx hT))
  have h2 := parse_one (cfg := ⟨flt, some⟩) (src := src') (ts := X ++ .op .eq :: (X ++ .op o :: .op .lpar :: (T ++ [.op .rpar]))) (nl := n2) (by simpa using hs')
    (simple_of hX hf (by decide) (.assign hx (Gram.opParen ho hX hT)))
  exact ⟨h1, h2.trans h1.symm⟩

/-- C89: the same where `X` is an element `c[k]` or `c.k`: it stands for `c[k] = c[k] o (E)`, with the phrases `c` and `k` in it twice. -/
theorem C89_augmented_element (flt : List Byte → BitVec 64) (src src' : List Byte) (X T : List TextItem) (c k e : Node) (t o : Tok) (n1 n2 : Bool)
    (ho : (t, o) ∈ augmentedOps) (hX : Gram flt some .post X (.get c k)) (hf : ∀ r, X ≠ .op .fn :: r) (hT : Gram flt some .expr T e)
    (hs : TextItems src (X ++ .op t :: (T ++ [.sep .semi n1])))
    (hs' : TextItems src' (X ++ .op .eq :: (X ++ .op o :: .op .lpar :: (T ++ [.op .rpar, .sep .semi n2])))) :
    parseSource ⟨flt, some⟩ src = some (.accepted [.set c k (some (.bin o (.get c k) e))]) ∧ parseSource ⟨flt, some⟩ src' = parseSource ⟨flt, some⟩ src := by
  have hx : Gram flt some .expr X (.get c k) := Gram.toExpr (hX.postTo.unaryTo 0 (by omega))
  have h1 := parse_one (cfg := ⟨flt, some⟩) (src := src) (ts := X ++ .op t :: T) (nl := n1) (by simpa using hs)
    (simple_of hX hf (aug_levels _ ho).1 (.augSet ho hx hT))
  have h2 := parse_one (cfg := ⟨flt, some⟩) (src := src') (ts := X ++ .op .eq :: (X ++ .op o :: .op .lpar :: (T ++ [.op .rpar]))) (nl := n2) (by simpa using hs')
    (simple_of hX hf (by decide) (.set hx (Gram.opParen ho hX hT)))
  exact ⟨h1, h2.trans h1.symm⟩

theorem items_of {src : List Byte} {ts : List TextItem} (h : (tokensOf src).1 = ts ∧ (tokensOf src).2.type = .eof) : TextItems src ts := by
  obtain ⟨rfl, h⟩ := h; exact ⟨_, reads_readTokens _ _, h⟩

theorem Gram.name (flt : List Byte → BitVec 64) (x : Name) : Gram flt some .expr [.word .id x] (.var x) := Gram.toExpr (Gram.unaryTo Gram.var.atomTo 0 (by omega))

/-- `x ~= y` is `x = x ~ (y)` -/
example : parseSource asWritten (word "x ~= y\n") = some (.accepted [.assign (word "x") (some (.bin .tilde (.var (word "x")) (.var (word "y"))))]) ∧
    parseSource asWritten (word "x = x ~ (y);") = parseSource asWritten (word "x ~= y\n") :=
  C89_augmented_variable (fun _ => 0) _ _ [.word .id (word "x")] [.word .id (word "y")] (word "x") (.var (word "y")) .tildeEq .tilde true false (by decide)
    (.postOne .var) (by simp) (Gram.name _ _) (items_of (by decide +kernel)) (items_of (by decide +kernel))

/-- `f().a += y`: `f` is called twice -/
example : parseSource asWritten (word "f().a += y;") = some (.accepted [.set (.call (.var (word "f")) []) (.str (word "a"))
      (some (.bin .plus (.get (.call (.var (word "f")) []) (.str (word "a"))) (.var (word "y"))))]) :=
  (C89_augmented_element (fun _ => 0) (word "f().a += y;") (word "f().a = f().a + (y);")
    [.word .id (word "f"), .op .lpar, .op .rpar, .op .dot, .word .id (word "a")] [.word .id (word "y")] (.call (.var (word "f")) []) (.str (word "a"))
    (.var (word "y")) .plusEq .plus false false (by decide)
    (.dot (tc := [.word .id (word "f"), .op .lpar, .op .rpar]) (.call (tf := [.word .id (word "f")]) (ta := []) (.postOne .var) .argsEnd) .var) (by simp) (Gram.name _ _)
    (items_of (by decide +kernel)) (items_of (by decide +kernel))).1

/-! ## C90: as many values as places -/

/-- How many values an expression on a right side leaves. -/
def Node.leaves : Node → Int
  | .variadic _ n => n
  | _ => 1

/-- Nothing in `es` asks for a number of values by itself (it is so for expressions as written). -/
def Plain (es : List Node) : Prop := ∀ e ∈ es, ∀ f n, e ≠ .variadic f n

theorem leaves_plain {es : List Node} (h : Plain es) : (es.map Node.leaves).sum = es.length := by
  induction es with
  | nil => rfl
  | cons e es ih =>
    have := ih fun e' h' => h e' (List.mem_cons_of_mem _ h')
    have h1 : e.leaves = 1 := by
      unfold Node.leaves
      split
      · exact absurd rfl (h _ (List.mem_cons_self ..) _ _)
      · rfl
    simp [h1, this]; omega

/-- A call: it may return any number of values. -/
def Node.isCall : Node → Bool
  | .call _ _ => true
  | .mcall _ _ _ => true
  | _ => false

theorem padTo_call {n : Nat} {es : List Node} {e : Node} (h : es.getLast? = some e) (hc : e.isCall = true) : padTo n es = lastSpread ((n : Int) + 1 - es.length) es := by
  unfold padTo
  rw [h]
  cases e <;> first | rfl | cases hc

theorem padTo_other {n : Nat} {es : List Node} {e : Node} (h : es.getLast? = some e) (hc : e.isCall = false) :
    padTo n es = es ++ List.replicate (n - es.length) .undef := by
  unfold padTo
  rw [h]
  cases e <;> first | rfl | cases hc

theorem leaves_spread (n : Int) (es : List Node) (hp : Plain es) {l : Node} (hl : es.getLast? = some l) (hc : l.isCall = true) :
    ((lastSpread n es).map Node.leaves).sum = es.length - 1 + n := by
  induction es with
  | nil => simp at hl
  | cons e es ih =>
    cases es with
    | nil =>
      simp only [List.getLast?_singleton, Option.some.injEq] at hl
      subst hl
      cases e <;> first | (cases hc; done) | simp [lastSpread, Node.leaves]
    | cons e' es =>
      have h1 : e.leaves = 1 := by
        unfold Node.leaves
        split
        · exact absurd rfl (hp _ (List.mem_cons_self ..) _ _)
        · rfl
      have := ih (fun x hx => hp x (List.mem_cons_of_mem _ hx)) (by simpa using hl)
      have e1 : lastSpread n (e :: e' :: es) = e :: lastSpread n (e' :: es) := by cases e <;> rfl
      rw [e1]
      simp only [List.map_cons, List.sum_cons, h1, this]
      simp
      omega

/-- The right side of an assignment to `n` places, with at most as many expressions, leaves `n` values: the expressions come first, in order, and then
`undef`s, or the values of the last expression if it is a call. -/
theorem padTo_leaves (n : Nat) (es : List Node) (hp : Plain es) (hne : es ≠ []) (hn : es.length ≤ n) : ((padTo n es).map Node.leaves).sum = n := by
  obtain ⟨l, hl⟩ : ∃ l, es.getLast? = some l := ⟨_, List.getLast?_eq_some_getLast hne⟩
  cases h : l.isCall
  case true => rw [padTo_call hl h, leaves_spread _ es hp hl h]; omega
  case false =>
    rw [padTo_other hl h]
    have hr : ∀ k : Nat, ((List.replicate k Node.undef).map Node.leaves).sum = k := by
      intro k
      induction k with
      | zero => rfl
      | succ k ih => rw [List.replicate_succ, List.map_cons, List.sum_cons, ih]; simp [Node.leaves]; omega
    rw [List.map_append, List.sum_append, leaves_plain hp, hr]
    omega

/-- The places and the expressions of a text. -/
theorem C90_let_count_partial (cfg : ParseCfg) (src : List Byte) (x : Name) (tl tr tm : List TextItem) (ls : List Node) (e : Node) (es : List Node) (nl : Bool)
    (hl : Gram cfg.strtod cfg.fold .lvals tl ls) (hr : Gram cfg.strtod cfg.fold .expr tr e) (hm : Gram cfg.strtod cfg.fold .more tm es) (hp : Plain (e :: es))
    (hn : (e :: es).length ≤ ls.length + 1) (hs : TextItems src (.op .let_ :: .word .id x :: (tl ++ .op .eq :: (tr ++ (tm ++ [.sep .semi nl]))))) :
    ∃ places values, parseSource cfg src = some (.accepted [.decl places values]) ∧ places.length = ls.length + 1 ∧
      (values.map Node.leaves).sum = places.length := by
  refine ⟨_, _, parse_one (ts := .op .let_ :: .word .id x :: (tl ++ .op .eq :: (tr ++ tm))) (nl := nl) (by simpa using hs) (.declLet hl hr hm (by simp at hn ⊢; omega)),
    by simp, ?_⟩
  rw [padTo_leaves _ _ hp (by simp) hn]
  simp

/-- C90 (partial): the same for a list of places that starts with a variable.  Missing: `C90_too_many`, `C90_too_few`. -/
theorem C90_var_count_partial (cfg : ParseCfg) (src : List Byte) (x : Name) (tl tr tm : List TextItem) (l : Node) (ls : List Node) (e : Node) (es : List Node) (nl : Bool)
    (hl : Gram cfg.strtod cfg.fold .lvals tl (l :: ls)) (hr : Gram cfg.strtod cfg.fold .expr tr e) (hm : Gram cfg.strtod cfg.fold .more tm es) (hp : Plain (e :: es))
    (hn : (e :: es).length ≤ ls.length + 2) (hs : TextItems src (.word .id x :: (tl ++ .op .eq :: (tr ++ (tm ++ [.sep .semi nl]))))) :
    ∃ places values, parseSource cfg src = some (.accepted [.decl places values]) ∧ places.length = ls.length + 2 ∧
      (values.map Node.leaves).sum = places.length := by
  refine ⟨_, _, parse_one (ts := .word .id x :: (tl ++ .op .eq :: (tr ++ tm))) (nl := nl) (by simpa using hs) (.declVar hl hr hm (by simp at hn ⊢; omega)),
    by simp, ?_⟩
  rw [padTo_leaves _ _ hp (by simp) hn]
  simp
  omega

/-- C90: one expression too many is accepted, and its value is left over (finding). -/
theorem C90_too_many (flt : List Byte → BitVec 64) (src : List Byte) (x : Name) (A B : List TextItem) (a b : Node) (nl : Bool) (hA : Gram flt some .expr A a)
    (hB : Gram flt some .expr B b) (hb : b.isCall = false)
    (hs : TextItems src (.op .let_ :: .word .id x :: .op .eq :: (A ++ .op .comma :: (B ++ [.sep .semi nl])))) :
    parseSource ⟨flt, some⟩ src = some (.accepted [.decl [.let_ x none] [a, b]]) := by
  have := parse_one (cfg := ⟨flt, some⟩) (src := src) (ts := .op .let_ :: .word .id x :: ([] ++ .op .eq :: (A ++ .op .comma :: (B ++ [])))) (nl := nl) (by simpa using hs)
    (.declLet .lvalsEnd hA (.more hB .moreEnd) (by simp))
  rw [this, padTo_other (e := b) (by simp) hb]
  rfl

/-- C90: an assignment to several places that starts with an element gets one value too few (finding: the places are counted from 0). -/
theorem C90_too_few (flt : List Byte → BitVec 64) (src : List Byte) (X A : List TextItem) (c k a : Node) (y : Name) (nl : Bool) (hX : Gram flt some .post X (.get c k))
    (hf : ∀ r, X ≠ .op .fn :: r) (hA : Gram flt some .expr A a) (ha : a.isCall = false)
    (hc : ∀ z r, X ≠ .word .id z :: .op .comma :: r) (hX1 : 1 < X.length)
    (hs : TextItems src (X ++ .op .comma :: .word .id y :: .op .eq :: (A ++ [.sep .semi nl]))) :
    parseSource ⟨flt, some⟩ src = some (.accepted [.decl [.set c k none, .assign y none] [a]]) := by
  have hx : Gram flt some .expr X (.get c k) := Gram.toExpr (hX.postTo.unaryTo 0 (by omega))
  have hy : Gram flt some .lvals [.op .comma, .word .id y] [.assign y none] := .lvals (tl := [.word .id y]) (tm := []) (.lvalVar (.postOne .var)) .lvalsEnd
  have hg : Gram flt some .simple (X ++ ([.op .comma, .word .id y] ++ .op .eq :: (A ++ []))) (.decl [.set c k none, .assign y none] (padTo 1 [a])) :=
    .declSet (ls := []) (es := []) hx hy hA .moreEnd (by simp)
  have h1 : ∀ r, X ++ ([.op .comma, .word .id y] ++ .op .eq :: (A ++ [])) ≠ .op .fn :: r := by
    intro r e
    obtain ⟨i, rest, rfl, -, -⟩ : AtomCat .post X := atom_starts hX
    simp only [List.cons_append, List.cons.injEq] at e
    exact hf rest (by rw [e.1])
  have h2 : ∀ z r, X ++ ([.op .comma, .word .id y] ++ .op .eq :: (A ++ [])) ≠ .word .id z :: .op .comma :: r := by
    intro z r e
    rcases X with _ | ⟨i, _ | ⟨j, X'⟩⟩
    · simp at hX1
    · simp at hX1
    · simp only [List.cons_append, List.cons.injEq] at e
      exact hc z X' (by rw [e.1, e.2.1])
  have := parse_one (cfg := ⟨flt, some⟩) (src := src) (ts := X ++ ([.op .comma, .word .id y] ++ .op .eq :: (A ++ []))) (nl := nl) (by simpa using hs)
    (.simple h1 h2 hg)
  rw [this, padTo_other (e := a) (by simp) ha]
  rfl

/-- `let x = a, b` declares one variable and has two values -/
theorem demo_too_many : parseSource asWritten (word "let x = a, b;") = some (.accepted [.decl [.let_ (word "x") none] [.var (word "a"), .var (word "b")]]) :=
  C90_too_many (fun _ => 0) _ (word "x") _ _ _ _ false (Gram.name _ (word "a")) (Gram.name _ (word "b")) rfl (items_of (by decide +kernel))

/-- `t.k, y = a` assigns to two places and has one value -/
theorem demo_too_few : parseSource asWritten (word "t.k, y = a;") =
    some (.accepted [.decl [.set (.var (word "t")) (.str (word "k")) none, .assign (word "y") none] [.var (word "a")]]) :=
  C90_too_few (fun _ => 0) _ [.word .id (word "t"), .op .dot, .word .id (word "k")] _ _ _ _ (word "y") false
    (.dot (tc := [.word .id (word "t")]) (.postOne .var) .var) (by simp) (Gram.name _ (word "a")) rfl (by simp) (by simp) (items_of (by decide +kernel))

/-- C90: that there are as many values as places is false. -/
theorem C90_false : ¬ ∀ (cfg : ParseCfg) (src : List Byte) (places values : List Node), parseSource cfg src = some (.accepted [.decl places values]) →
    (values.map Node.leaves).sum = places.length := by
  intro h
  have := h _ _ _ _ demo_too_many
  simp [Node.leaves] at this

/-- `let x, let y, let z = a, f()`: the call has to leave two values -/
example : ∃ places values, parseSource asWritten (word "let x, let y, let z = a, f();") = some (.accepted [.decl places values]) ∧ places.length = 3 ∧
    (values.map Node.leaves).sum = places.length :=
  C90_let_count_partial asWritten _ (word "x") [.op .comma, .op .let_, .word .id (word "y"), .op .comma, .op .let_, .word .id (word "z")] [.word .id (word "a")]
    [.op .comma, .word .id (word "f"), .op .lpar, .op .rpar] [.let_ (word "y") none, .let_ (word "z") none] (.var (word "a")) [.call (.var (word "f")) []] false
    (.lvals (tl := [.op .let_, .word .id (word "y")]) .lvalLet (.lvals (tl := [.op .let_, .word .id (word "z")]) (tm := []) .lvalLet .lvalsEnd)) (Gram.name _ _)
    (.more (te := [.word .id (word "f"), .op .lpar, .op .rpar]) (tm := [])
      (Gram.toExpr (Gram.unaryTo (Gram.postTo (.call (tf := [.word .id (word "f")]) (ta := []) (.postOne .var) .argsEnd)) 0 (by omega))) .moreEnd)
    (by simp [Plain]) (by simp) (items_of (by decide +kernel))

/-! ## C91: strings with embedded expressions -/

/-- The items of `"v#{E1}w1#{E2}w2 ..."`. -/
def interpItems : List Byte → List (List TextItem × List Byte) → List TextItem
  | v, [] => [.str v false]
  | v, (E, w) :: ps => .str v true :: .op .lbrc :: .enter :: (E ++ .resume .rbrc :: interpItems w ps)

theorem Gram.interp {flt : List Byte → BitVec 64} {fold : Node → Option Node} (ps : List (List TextItem × Node × List Byte)) : ∀ (v : List Byte),
    (∀ p ∈ ps, Gram flt fold .expr p.1 p.2.1) → Gram flt fold .string (interpItems v (ps.map fun p => (p.1, p.2.2))) (v, ps.map (·.2)) := by
  induction ps with
  | nil => intro v _; exact .strEnd
  | cons p ps ih =>
    intro v h
    exact .strMore (h p (List.mem_cons_self ..)) (ih p.2.2 fun q hq => h q (List.mem_cons_of_mem _ hq))

/-- C91 (partial): a string with embedded expressions is the concatenation of its pieces and the expressions, from the left, for any number of them, nested strings
included.  Missing: what else is accepted, see `C91_extra_token`. -/
theorem C91_interpolation_partial (flt : List Byte → BitVec 64) (src : List Byte) (v : List Byte) (ps : List (List TextItem × Node × List Byte)) (nl : Bool)
    (hg : ∀ p ∈ ps, Gram flt some .expr p.1 p.2.1) (hs : TextItems src (.op .echo :: (interpItems v (ps.map fun p => (p.1, p.2.2)) ++ [.sep .semi nl]))) :
    parseSource ⟨flt, some⟩ src = some (.accepted [.echo ((ps.map (·.2)).foldl (fun n p => .bin .tilde (.bin .tilde n p.1) (.str p.2)) (.str v))]) :=
  parse_one (ts := .op .echo :: interpItems v (ps.map fun p => (p.1, p.2.2))) (nl := nl) (by simpa using hs)
    (.echo (Gram.toExpr (Gram.unaryTo (Gram.atomTo (.string (Gram.interp ps v hg))) 0 (by omega))))

/-- C91: in `"v#{E t}w"`, where `t` is any one token right before the `}`, the token is dropped, and the `}` is not (finding: the parser asks for the character `}`, not
for the token). -/
theorem C91_extra_token (flt : List Byte → BitVec 64) (src : List Byte) (v w : List Byte) (E : List TextItem) (e : Node) (t : Tok) (nl : Bool) (hE : Gram flt some .expr E e)
    (hs : TextItems src (.op .echo :: .str v true :: .op .lbrc :: .enter :: (E ++ .resume t :: .str w false :: [.sep .semi nl]))) :
    parseSource ⟨flt, some⟩ src = some (.accepted [.echo (.bin .tilde (.bin .tilde (.str v) e) (.str w))]) :=
  parse_one (ts := .op .echo :: .str v true :: .op .lbrc :: .enter :: (E ++ .resume t :: [.str w false])) (nl := nl) (by simpa using hs)
    (.echo (Gram.toExpr (Gram.unaryTo (Gram.atomTo (.string (ps := [(e, w)]) (.strMore hE .strEnd))) 0 (by omega))))

/-- How the next item is read. -/
inductive Move where
  | tok | enter | resume
deriving DecidableEq

/-- The items along the given moves. -/
def follow : List Move → Lex → Option (List TextItem × Lex)
  | [], l => some ([], l)
  | .tok :: ms, l => if l.type = .unknown then none else (follow ms (gettok l)).map fun r => (l.item :: r.1, r.2)
  | .enter :: ms, l => (follow ms { l with interp := false }).map fun r => (.enter :: r.1, r.2)
  | .resume :: ms, l => if l.c = some (ch '}') ∧ l.type ≠ .unknown then
      (follow ms (eatInterpBody { l with interp := true } l.rest)).map fun r => (.resume l.type :: r.1, r.2) else none

theorem follow_reads : ∀ (ms : List Move) (l l' : Lex) (ts : List TextItem), follow ms l = some (ts, l') → Reads l ts l' := by
  intro ms
  induction ms with
  | nil => intro l l' ts h; simp only [follow, Option.some.injEq, Prod.mk.injEq] at h; obtain ⟨rfl, rfl⟩ := h; exact .refl _
  | cons m ms ih =>
    intro l l' ts h
    cases m with
    | tok =>
      rw [follow] at h
      split at h
      · cases h
      · rename_i hu
        rw [Option.map_eq_some_iff] at h
        obtain ⟨r, h1, h2⟩ := h
        cases h2; exact .tok hu (ih _ _ _ h1)
    | enter =>
      rw [follow, Option.map_eq_some_iff] at h
      obtain ⟨r, h1, h2⟩ := h
      cases h2; exact .enter (ih _ _ _ h1)
    | resume =>
      rw [follow] at h
      split at h
      · rename_i hc
        rw [Option.map_eq_some_iff] at h
        obtain ⟨r, h1, h2⟩ := h
        cases h2; exact .resume hc.1 hc.2 (ih _ _ _ h1)
      · cases h

theorem items_follow {src : List Byte} {ts : List TextItem} (ms : List Move)
    (h : ((follow ms (gettok (Lex.new src))).map fun r => (r.1, r.2.type)) = some (ts, .eof)) : TextItems src ts := by
  rw [Option.map_eq_some_iff] at h
  obtain ⟨⟨ts', l⟩, h1, h2⟩ := h
  simp only [Prod.mk.injEq] at h2
  obtain ⟨rfl, h3⟩ := h2
  exact ⟨l, follow_reads ms _ _ _ h1, h3⟩

/-- `"a#{x}b#{y}"` -/
example : parseSource asWritten (word "echo \"a#{x}b#{y}\";") =
    some (.accepted [.echo (.bin .tilde (.bin .tilde (.bin .tilde (.bin .tilde (.str (word "a")) (.var (word "x"))) (.str (word "b"))) (.var (word "y"))) (.str []))]) :=
  C91_interpolation_partial (fun _ => 0) _ (word "a") [([.word .id (word "x")], .var (word "x"), word "b"), ([.word .id (word "y")], .var (word "y"), [])] false
    (by simp [Gram.name]) (items_follow [.tok, .tok, .tok, .enter, .tok, .resume, .tok, .tok, .enter, .tok, .resume, .tok, .tok] (by decide +kernel))

/-- `"#{x y}z"` is accepted, as `"" ~ x ~ "}z"` -/
theorem demo_extra : parseSource asWritten (word "echo \"#{x y}z\";") = some (.accepted [.echo (.bin .tilde (.bin .tilde (.str []) (.var (word "x"))) (.str (word "}z")))]) :=
  C91_extra_token (fun _ => 0) _ [] (word "}z") [.word .id (word "x")] (.var (word "x")) .id false (Gram.name _ _)
    (items_follow [.tok, .tok, .tok, .enter, .tok, .resume, .tok, .tok] (by decide +kernel))

end Yasl
