import Verif.Model.BareExpr
import Verif.Props.FEndToEnd
set_option autoImplicit false
/-!
# C121 — an expression used as a statement

`e;` evaluates `e` and leaves nothing behind.  False for expressions that begin with `fn (`.
-/
namespace Yasl

/-- C121, what holds: by the grammar, a statement that is a bare expression begins with `fn`, and is an expression. -/
theorem C121_only_fn_partial {flt : List Byte → BitVec 64} {fold : Node → Option Node} {ts : List TextItem} {n : Node} (h : Gram flt fold .stmt ts n) (k : Nat)
    (e : FExpr) (k' : Nat) (hi : n.item k = some (.bare e, k')) : ∃ rest, ts = .op .fn :: rest ∧ Gram flt fold .expr ts n := by
  have hx : ∃ r, Node.fexpr n k = some r := by
    unfold Node.item at hi
    split at hi
    · cases hi
    · obtain ⟨r, h1, _⟩ := Option.map_eq_some_iff.1 hi
      exact ⟨r, h1⟩
  obtain ⟨r, hx⟩ := hx
  cases h with
  | fnExpr h => exact ⟨_, rfl, h⟩
  | simple h1 h2 h =>
    cases h <;> simp [Node.fexpr] at hx
  | if_ h => cases h <;> simp [Node.fexpr] at hx
  | _ => simp [Node.fexpr] at hx

/-- The statements of `Verif.Model.FAst`, as a program. -/
def FStmts.items : FStmts → List FItem
  | .nil => []
  | .cons s ss => .stmt s :: ss.items

/-- What a statement is for: an expression is evaluated for its effects. -/
def FItem.meant : FItem → FStmt
  | .stmt s => s
  | .bare e => .expr e

theorem compileItemsAll_items : ∀ (ss : FStmts) (s : FState) (code : List Byte), compileItemsAll ss.items s code = compileFAll ss s code
  | .nil, s, code => by rw [FStmts.items, compileItemsAll, compileFAll]
  | .cons st ss, s, code => by
    rw [FStmts.items, compileItemsAll, compileFAll]
    exact compileItemsAll_items ss _ _

theorem itemsOf_fstmts (ns : List Node) (k : Nat) (ss : FStmts) (k' : Nat) (h : fstmtsOf ns k = some (ss, k')) : itemsOf ns k = some ss.items := by
  induction ns generalizing k ss with
  | nil => rw [fstmtsOf] at h; cases h; rfl
  | cons n ns ih =>
    rw [fstmtsOf, Option.bind_eq_some_iff] at h
    obtain ⟨r, h1, h⟩ := h
    obtain ⟨q, h2, h⟩ := Option.bind_eq_some_iff.1 h
    cases h
    rw [itemsOf, Node.item, h1]
    simp only [Option.bind_some]
    rw [ih _ _ h2]
    rfl

theorem itemsOf_stmts (ns : List Node) (k : Nat) (is : List FItem) (h : itemsOf ns k = some is) (hb : ∀ e, FItem.bare e ∉ is) :
    ∃ ss k', fstmtsOf ns k = some (ss, k') ∧ is = ss.items := by
  induction ns generalizing k is with
  | nil => cases h; exact ⟨_, _, rfl, rfl⟩
  | cons n ns ih =>
    rw [itemsOf, Option.bind_eq_some_iff] at h
    obtain ⟨r, h1, h⟩ := h
    obtain ⟨js, h2, rfl⟩ := Option.map_eq_some_iff.1 h
    rw [Node.item] at h1
    split at h1
    · rename_i q hq
      cases h1
      obtain ⟨ss, k', h3, rfl⟩ := ih _ _ h2 fun e he => hb e (List.mem_cons_of_mem _ he)
      refine ⟨.cons q.1 ss, k', ?_, rfl⟩
      rw [fstmtsOf, hq]
      simp only [Option.bind_some]
      rw [h3]
      rfl
    · obtain ⟨q, _, rfl⟩ := Option.map_eq_some_iff.1 h1
      exact absurd (List.mem_cons_self ..) (hb q.1)

/-- C121, what holds: a text without such statements runs as C106 says (it is the same machine). -/
theorem C121_others_partial {W : Type} (cfg : ParseCfg) (F : FloatOps) (P : Prims W) (Q : W → Val → List Val → PRes W (List Val)) (globals : List Name)
    (lines src : List Byte) (G : Name → Option Val) (w : W) (nextFp : Int) (steps : Nat) (ss : List Node) (is : List FItem)
    (hs : parseSource cfg src = some (.accepted ss)) (hi : itemsOf ss 0 = some is) (hb : ∀ e, FItem.bare e ∉ is) :
    executeItems cfg F P Q globals lines src G w nextFp steps = executeF cfg F P Q globals lines src G w nextFp steps := by
  obtain ⟨prog, k', h1, rfl⟩ := itemsOf_stmts _ _ _ hi hb
  have h2 : buildItems cfg globals lines src = buildF cfg globals lines src := by
    rw [buildItems, buildF, hs]
    dsimp only
    rw [hi, fprogOf, h1]
    dsimp only [Option.map_some]
    rw [compileItems, compileF, compileItemsAll_items]
    rfl
  rw [executeItems, executeF, h2]
  rcases buildF cfg globals lines src with _ | b
  · rfl
  · cases b <;> rfl

/-- a function called where it is written -/
def iifeText : List Byte := word "fn() { return 7; }()\nlet y = 2\necho y\n"

def iifeTree : List Node := [.call (.fn [] [.ret (.variadic (.int 7) (-1))] none) [], .decl [.let_ (word "y") none] [.int 2], .echo (.var (word "y"))]

def iifeItems : List FItem := [.bare (.call (.fn 0 [] (.of [.ret (.ctx true (.lit (.int 7)))])) .nil), .stmt (.let_ (word "y") (.lit (.int 2))),
  .stmt (.echo (.var (word "y")))]

theorem iifeText_tokens : (tokensOf iifeText).1 = [.op .fn, .op .lpar, .op .rpar, .op .lbrc, .op .ret, .word .int (word "7"), .sep .semi false, .op .rbrc, .op .lpar,
      .op .rpar, .sep .semi true, .op .let_, .word .id (word "y"), .op .eq, .word .int (word "2"), .sep .semi true, .op .echo, .word .id (word "y"), .sep .semi true] ∧
    (tokensOf iifeText).2.type = .eof := by decide +kernel

theorem iifeText_gram (flt : List Byte → BitVec 64) (fold : Node → Option Node) (h1 : ∀ i, fold (.int i) = some (.int i))
    (h2 : fold (.call (.fn [] [.ret (.variadic (.int 7) (-1))] none) []) = some (.call (.fn [] [.ret (.variadic (.int 7) (-1))] none) []))
    (h3 : fold (.var (word "y")) = some (.var (word "y"))) : ∃ ts, TextItems iifeText ts ∧ Gram flt fold .stmts ts iifeTree := by
  suffices h : Gram flt fold .stmts (tokensOf iifeText).1 iifeTree from
    ⟨_, (textItems_plain (by decide +kernel) (FirstPlain.gram h)).2 ⟨rfl, iifeText_tokens.2⟩, h⟩
  rw [iifeText_tokens.1]
  have hi : ∀ (v : List Byte) (i : BitVec 64), getInt v = i → Gram flt fold .expr [.word .int v] (.int i) := by
    rintro v i rfl; exact .expr (.ternOne (Gram.int.atomTo.unaryTo 0 (by omega))) (h1 _)
  have i7 : getInt (word "7") = 7#64 := by decide +kernel
  have i2 : getInt (word "2") = 2#64 := by decide +kernel
  have b : Gram flt fold .body _ _ := .body (.stmts (nl := false) (.ret (hi _ _ i7)) .stmtsEnd)
  have f := Gram.fn (tp := []) .nil b
  have c := Gram.call (ta := []) (.postOne f) .argsEnd
  exact .stmts (nl := true) (.fnExpr (.expr (.ternOne (c.postTo.unaryTo 0 (by omega))) h2))
    (.stmts (nl := true) (.declLet (tl := []) (tm := []) .lvalsEnd (hi _ _ i2) .moreEnd (by simp))
      (.stmts (nl := true) (.echo (.expr (.ternOne (Gram.var.atomTo.unaryTo 0 (by omega))) h3)) .stmtsEnd))

/-- What a text of such statements prints, and how it stops. -/
def demoRunItems (is : List FItem) (steps : Nat) : Option (List Byte × RtErr) :=
  (compileItems [] is []).bind fun image => (FVM.load image (fun _ => none) () 0).bind fun (m, K) =>
    match FVM.run demoFloat demoPrims demoQ image K steps m with
    | .stop m e => some (m.vm.out, e)
    | .next _ => none

/-- C121 is false: `fn() { return 7; }()`, `let y = 2`, `echo y` means 2, and prints 7: the value of the call stays on the stack, where `y` is read. -/
theorem C121_counterexample : (∃ ts, TextItems iifeText ts ∧ Gram (fun _ => 0) some .stmts ts iifeTree) ∧ itemsOf iifeTree 0 = some iifeItems ∧
    endedWith (demoMeaningF (.of (iifeItems.map FItem.meant)) 20) [50, 10] = true ∧
    ∃ k m, executeItems ⟨fun _ => 0, foldNode demoFloat⟩ demoFloat demoPrims demoQ [] [] iifeText (fun _ => none) () 0 k = some (.stopped m .halt) ∧
      m.vm.out = [55, 10] := by
  refine ⟨iifeText_gram _ some (fun _ => rfl) rfl rfl, by rfl, by decide +kernel, 1000, ?_⟩
  obtain ⟨ts, h1, h2⟩ := iifeText_gram (fun _ => 0) (foldNode demoFloat) (fun _ => rfl) (by rfl) (by rfl)
  have h3 := (C86_grammar ⟨fun _ => 0, foldNode demoFloat⟩ iifeText _).2 ⟨ts, h1, h2⟩
  have h4 : itemsOf iifeTree 0 = some iifeItems := by rfl
  have hd : demoRunItems iifeItems 1000 = some ([55, 10], .halt) := by decide +kernel
  rw [demoRunItems] at hd
  rw [executeItems, buildItems, h3]; dsimp only; rw [h4]; dsimp only
  cases hc : compileItems [] iifeItems [] with
  | none => rw [hc] at hd; simp at hd
  | some image =>
    rw [hc] at hd
    simp only [Option.bind_some] at hd
    dsimp only
    cases hl : FVM.load image (fun _ => none) () 0 with
    | none => rw [hl] at hd; simp at hd
    | some p =>
      obtain ⟨m, K⟩ := p
      rw [hl] at hd
      simp only [Option.bind_some] at hd
      dsimp only
      cases hr : FVM.run demoFloat demoPrims demoQ image K 1000 m with
      | next m => rw [hr] at hd; simp at hd
      | stop m e =>
        rw [hr] at hd
        simp only [Option.some.injEq, Prod.mk.injEq] at hd
        obtain ⟨h5, rfl⟩ := hd
        exact ⟨m, rfl, h5⟩

/-- an expression that does not begin with `fn` leaves nothing behind: with the same function called by its name, 2 is printed -/
example : demoRunItems [.stmt (.fnDecl (word "f") 0 [] (.of [.ret (.ctx true (.lit (.int 7)))])), .stmt (.expr (.call (.var (word "f")) .nil)),
    .stmt (.let_ (word "y") (.lit (.int 2))), .stmt (.echo (.var (word "y")))] 1000 = some ([50, 10], .halt) := by decide +kernel

/-- the hypotheses of `C121_others_partial` are met by the text of C106 -/
example : ∃ is, itemsOf (recTree (.int 1)) 0 = some is ∧ (∀ e, FItem.bare e ∉ is) ∧ is.length = 2 := by
  refine ⟨_, itemsOf_fstmts _ _ (recProg (.lit (.int 1))) _ (by rfl), ?_, by rfl⟩
  simp [recProg, FStmts.items, FStmts.of]

end Yasl
