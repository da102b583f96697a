import Verif.Model.Fill
import Verif.Props.FEndToEnd
set_option autoImplicit false
/-!
# C124 — a call that is an operand or an argument gives one value

In `let a, let b = f(g(1), 2)` the call of `f` fills `a` and `b`; that of `g` is an argument and gives one value.
-/
namespace Yasl

mutual
/-- No call in the expression but as the last argument of a call or the like (where `parse_call` puts a `N_VARIADICCONTEXT`), and no function literal. -/
def FExpr.sealed : FExpr → Bool
  | .lit _ | .var _ | .ctx _ _ => true
  | .un _ e => e.sealed
  | .bin _ l r => l.sealed && r.sealed
  | .tri c a b => c.sealed && (a.sealed && b.sealed)
  | .list es | .table es => es.sealed
  | .get c k => c.sealed && k.sealed
  | .slice c a b => c.sealed && (a.sealed && b.sealed)
  | .fn _ _ _ | .call _ _ | .mcall _ _ _ => false
/-- The same for several expressions. -/
def FExprs.sealed : FExprs → Bool
  | .nil => true
  | .cons e es => e.sealed && es.sealed
end

/-- The state with another number of results that is asked for. -/
def FState.asking (s : FState) (n : Int) : FState := { s with expected := n }

theorem asking_on (s : FState) (n : Int) (f : CState → CState) : (s.asking n).on f = (s.on f).asking n := rfl
theorem asking_op (s : FState) (n : Int) (o : Opc) : (s.asking n).op o = (s.op o).asking n := rfl
theorem asking_emit (s : FState) (n : Int) (b : Byte) : (s.asking n).emit b = (s.emit b).asking n := rfl
theorem asking_jump (s : FState) (n : Int) (o : Opc) : (s.asking n).jump o = (s.jump o).asking n := rfl
theorem asking_patch (s : FState) (n : Int) (i : Nat) : (s.asking n).patch i = (s.patch i).asking n := rfl
theorem asking_len (s : FState) (n : Int) : (s.asking n).len = s.len := rfl

theorem asking_loadVar (s : FState) (n : Int) (x : Name) : (s.asking n).loadVar x = (s.loadVar x).asking n := by
  unfold FState.loadVar
  by_cases h : scopeGet s.c.scopes x = none ∧ inOuter s.outer x
  · rw [if_pos h, if_pos (show scopeGet (s.asking n).c.scopes x = none ∧ inOuter (s.asking n).outer x from h)]; rfl
  · rw [if_neg h, if_neg (show ¬ (scopeGet (s.asking n).c.scopes x = none ∧ inOuter (s.asking n).outer x) from h)]; rfl

mutual
/-- Such an expression is compiled the same whatever number of results is asked for. -/
theorem visitFE_asking (n : Int) : ∀ (e : FExpr) (s : FState), e.sealed = true → visitFE e (s.asking n) = (visitFE e s).asking n
  | .lit l, s, _ => by rw [visitFE, visitFE, asking_on]
  | .var x, s, _ => by rw [visitFE, visitFE, asking_loadVar]
  | .un o e, s, h => by
    rw [FExpr.sealed] at h
    rw [visitFE, visitFE, visitFE_asking n e s h, asking_op]
  | .bin t l r, s, h => by
    rw [FExpr.sealed, Bool.and_eq_true] at h
    have hl := fun s => visitFE_asking n l s h.1
    have hr := fun s => visitFE_asking n r s h.2
    cases t <;> simp only [visitFE, hl, hr, asking_op, asking_on, asking_len, asking_patch]
  | .tri c a b, s, h => by
    rw [FExpr.sealed, Bool.and_eq_true, Bool.and_eq_true] at h
    have hc := fun s => visitFE_asking n c s h.1
    have ha := fun s => visitFE_asking n a s h.2.1
    have hb := fun s => visitFE_asking n b s h.2.2
    simp only [visitFE, hc, ha, hb, asking_jump, asking_len, asking_patch]
  | .list es, s, h => by
    rw [FExpr.sealed] at h
    rw [visitFE, visitFE, asking_op, visitFEs_asking n es _ h, asking_op]
  | .table es, s, h => by
    rw [FExpr.sealed] at h
    rw [visitFE, visitFE, asking_op, visitFEs_asking n es _ h, asking_op]
  | .get c k, s, h => by
    rw [FExpr.sealed, Bool.and_eq_true] at h
    rw [visitFE, visitFE, visitFE_asking n c s h.1, visitFE_asking n k _ h.2, asking_op]
  | .slice c a b, s, h => by
    rw [FExpr.sealed, Bool.and_eq_true, Bool.and_eq_true] at h
    rw [visitFE, visitFE, visitFE_asking n c s h.1, visitFE_asking n a _ h.2.1, visitFE_asking n b _ h.2.2, asking_op]
  | .ctx all e, s, _ => by rw [visitFE, visitFE]; rfl
/-- The same for several expressions. -/
theorem visitFEs_asking (n : Int) : ∀ (es : FExprs) (s : FState), es.sealed = true → visitFEs es (s.asking n) = (visitFEs es s).asking n
  | .nil, s, _ => by rw [visitFEs, visitFEs]
  | .cons e es, s, h => by
    rw [FExprs.sealed, Bool.and_eq_true] at h
    rw [visitFEs, visitFEs, visitFE_asking n e s h.1, visitFEs_asking n es _ h.2]
end

mutual
/-- The number that is asked for is the same after an expression. -/
theorem visitFE_expected : ∀ (e : FExpr) (s : FState), e.sealed = true → (visitFE e s).expected = s.expected
  | e, s, h => by
    have := visitFE_asking s.expected e s h
    rw [show s.asking s.expected = s from rfl] at this
    rw [this]; rfl
end

theorem visitFEs_expected (es : FExprs) (s : FState) (h : es.sealed = true) : (visitFEs es s).expected = s.expected := by
  have := visitFEs_asking s.expected es s h
  rw [show s.asking s.expected = s from rfl] at this
  rw [this]; rfl

/-- C124, what holds: where the function and the arguments of the call have no calls but in last arguments, only this call asks for `n` values, and all the rest is compiled as it
is anywhere else. -/
theorem C124_call_partial (ls : List FTarget) (es : FExprs) (n : Int) (f : FExpr) (args : FExprs) (st : FState) (hf : f.sealed = true) (ha : args.sealed = true) :
    visitGItem (.fill ls es n (.call f args)) st =
      visitTargets ls ((visitFEs args (((visitFE f (visitFEs es st)).emit opINIT_CALL).emit (BitVec.ofInt 8 n))).emit opCALL) := by
  generalize hs : visitFEs es st = s
  have e1 : visitFE (.call f args) (s.asking n) = ((visitFEs args (((visitFE f s).emit opINIT_CALL).emit (BitVec.ofInt 8 n))).emit opCALL).asking n := by
    rw [visitFE, visitFE_asking n f s hf]
    show (visitFEs args ((((visitFE f s).emit opINIT_CALL).emit (BitVec.ofInt 8 n)).asking n)).emit opCALL = _
    rw [visitFEs_asking n args _ ha, asking_emit]
  rw [visitGItem, hs, visitSpread, show ({ s with expected := n } : FState) = s.asking n from rfl, e1]
  have e2 : ((visitFEs args (((visitFE f s).emit opINIT_CALL).emit (BitVec.ofInt 8 n))).emit opCALL).expected = s.expected := by
    show (visitFEs args _).expected = _
    rw [visitFEs_expected args _ ha]
    exact visitFE_expected f s hf
  rw [← e2]; rfl

/-- C124, what holds, for calls of methods. -/
theorem C124_mcall_partial (ls : List FTarget) (es : FExprs) (n : Int) (o : FExpr) (name : Name) (args : FExprs) (st : FState) (ho : o.sealed = true) (ha : args.sealed = true) :
    ∃ s', visitGItem (.fill ls es n (.mcall o name args)) st = visitTargets ls ((visitFEs args s').emit opCALL) ∧
      s' = { (visitFE o (visitFEs es st)).asking n |>.initMc name with expected := (visitFEs es st).expected } := by
  generalize hs : visitFEs es st = s
  have e2 : (visitFE o s).expected = s.expected := visitFE_expected o s ho
  have e3 : ((visitFE o s).asking n).initMc name = (({ ((visitFE o s).asking n).initMc name with expected := s.expected } : FState)).asking n := rfl
  refine ⟨_, ?_, rfl⟩
  rw [visitGItem, hs, visitSpread, show ({ s with expected := n } : FState) = s.asking n from rfl, visitFE, visitFE_asking n o s ho, e3, visitFEs_asking n args _ ha, asking_emit]
  have key : ∀ (S : FState) (e : Int), S.expected = e → ({ S.asking n with expected := e } : FState) = S := by rintro S e rfl; rfl
  exact congrArg (visitTargets ls) (key _ s.expected (by exact visitFEs_expected args _ ha))

/-- What a text of such statements prints, and how it stops. -/
def demoRunG (is : List GItem) (steps : Nat) : Option (List Byte × RtErr) :=
  (compileGItems [] is []).bind fun image => (FVM.load image (fun _ => none) () 0).bind fun (m, K) =>
    match FVM.run demoFloat demoPrims demoQ image K steps m with
    | .stop m e => some (m.vm.out, e)
    | .next _ => none

/-- a call that fills two places, with a call as its first argument -/
def fillText : List Byte := word "fn g(x) { return x; }\nfn f(x, y, z) { return z; }\nlet a, let b = f(g(1), 2, 3)\necho a\n"

/-- `f(g(1), 2, 3)` -/
def fillCall : Node := .call (.var (word "f")) [.call (.var (word "g")) [.int 1], .int 2, .int 3]

def fillTree : List Node := [
  .let_ (word "g") (some (.fn [.let_ (word "x") none] [.ret (.variadic (.var (word "x")) (-1))] (some (word "g")))),
  .let_ (word "f") (some (.fn [.let_ (word "x") none, .let_ (word "y") none, .let_ (word "z") none] [.ret (.variadic (.var (word "z")) (-1))] (some (word "f")))),
  .decl [.let_ (word "a") none, .let_ (word "b") none] [.variadic fillCall 2], .echo (.var (word "a"))]

def fillFns : List FStmt := [.fnDecl (word "g") 0 [word "x"] (.of [.ret (.ctx true (.var (word "x")))]),
  .fnDecl (word "f") 1 [word "x", word "y", word "z"] (.of [.ret (.ctx true (.var (word "z")))])]

def fillExpr : FExpr := .call (.var (word "f")) (.of [.call (.var (word "g")) (.of [.lit (.int 1)]), .lit (.int 2), .lit (.int 3)])

def fillItems : List GItem := fillFns.map .stmt ++ [.fill [.let_ (word "a"), .let_ (word "b")] .nil 2 fillExpr, .stmt (.echo (.var (word "a")))]

/-- What the text means, as `f` gives one value: `a` is it, and `b` is `undef`. -/
def fillMeant : List FStmt := fillFns ++ [.let_ (word "a") (.ctx false fillExpr), .let_ (word "b") (.lit .undef), .echo (.var (word "a"))]

theorem fillText_tokens : (tokensOf fillText).1 = [.op .fn, .word .id (word "g"), .op .lpar, .word .id (word "x"), .op .rpar, .op .lbrc, .op .ret, .word .id (word "x"),
      .sep .semi false, .op .rbrc, .sep .semi true, .op .fn, .word .id (word "f"), .op .lpar, .word .id (word "x"), .op .comma, .word .id (word "y"), .op .comma,
      .word .id (word "z"), .op .rpar, .op .lbrc, .op .ret, .word .id (word "z"), .sep .semi false, .op .rbrc, .sep .semi true, .op .let_, .word .id (word "a"), .op .comma,
      .op .let_, .word .id (word "b"), .op .eq, .word .id (word "f"), .op .lpar, .word .id (word "g"), .op .lpar, .word .int (word "1"), .op .rpar, .op .comma, .word .int (word "2"),
      .op .comma, .word .int (word "3"), .op .rpar, .sep .semi true, .op .echo, .word .id (word "a"), .sep .semi true] ∧ (tokensOf fillText).2.type = .eof := by
  decide +kernel

theorem fillText_gram (flt : List Byte → BitVec 64) (fold : Node → Option Node) (hi : ∀ i, fold (.int i) = some (.int i)) (hv : ∀ x, fold (.var x) = some (.var x))
    (h1 : fold (.call (.var (word "g")) [.int 1]) = some (.call (.var (word "g")) [.int 1])) (h2 : fold fillCall = some fillCall) : ∃ ts, TextItems fillText ts ∧ Gram flt fold .stmts ts fillTree := by
  suffices h : Gram flt fold .stmts (tokensOf fillText).1 fillTree from
    ⟨_, (textItems_plain (by decide +kernel) (FirstPlain.gram h)).2 ⟨rfl, fillText_tokens.2⟩, h⟩
  rw [fillText_tokens.1]
  have int : ∀ (v : List Byte) (i : BitVec 64), getInt v = i → Gram flt fold .expr [.word .int v] (.int i) := by
    rintro v i rfl; exact .expr (.ternOne (Gram.int.atomTo.unaryTo 0 (by omega))) (hi _)
  have var : ∀ x : Name, Gram flt fold .expr [.word .id x] (.var x) := fun x => .expr (.ternOne (Gram.var.atomTo.unaryTo 0 (by omega))) (hv _)
  have i1 : getInt (word "1") = 1#64 := by decide +kernel
  have i2 : getInt (word "2") = 2#64 := by decide +kernel
  have i3 : getInt (word "3") = 3#64 := by decide +kernel
  have call : ∀ (x : Name) (ta : List TextItem) (as : List Node), fold (.call (.var x) (lastSpread (-1) as)) = some (.call (.var x) (lastSpread (-1) as)) → Gram flt fold .args ta as →
      Gram flt fold .expr (.word .id x :: .op .lpar :: (ta ++ [.op .rpar])) (.call (.var x) (lastSpread (-1) as)) := fun x ta as hc h =>
    .expr (.ternOne ((Gram.call (tf := [.word .id x]) (.postOne .var) h).postTo.unaryTo 0 (by omega))) hc
  have g1 : Gram flt fold .expr [.word .id (word "g"), .op .lpar, .word .int (word "1"), .op .rpar] (.call (.var (word "g")) [.int 1]) :=
    call (word "g") _ [.int 1] h1 (.argsLast (int _ _ i1))
  have c := call (word "f") _ [.call (.var (word "g")) [.int 1], .int 2, .int 3] h2 (.args g1 (.args (int _ _ i2) (.argsLast (int _ _ i3))))
  have b1 : Gram flt fold .body _ _ := .body (.stmts (nl := false) (.ret (var (word "x"))) .stmtsEnd)
  have b2 : Gram flt fold .body _ _ := .body (.stmts (nl := false) (.ret (var (word "z"))) .stmtsEnd)
  exact .stmts (nl := true) (.fnDecl (x := word "g") (.let_ (x := word "x")) b1)
    (.stmts (nl := true) (.fnDecl (x := word "f") (.letMore (x := word "x") (.letMore (x := word "y") (.let_ (x := word "z")))) b2)
      (.stmts (nl := true) (.declLet (tm := []) (.lvals (tm := []) .lvalLet .lvalsEnd) c .moreEnd (by simp))
        (.stmts (nl := true) (.echo (var (word "a"))) .stmtsEnd)))

/-- C124 is false: `let a, let b = f(g(1), 2, 3)`, where `g` gives its argument and `f` its third one, means that `a` is 3.  It is 2: the call of `g` gives two values as well, the second
one `undef`, so that `f` has 1, `undef`, 2 as its arguments. -/
theorem C124_argument_counterexample : (∃ ts, TextItems fillText ts ∧ Gram (fun _ => 0) some .stmts ts fillTree) ∧ gitemsOf fillTree 0 = some fillItems ∧
    endedWith (demoMeaningF (.of fillMeant) 20) [51, 10] = true ∧
    ∃ k m, executeGItems ⟨fun _ => 0, foldNode demoFloat⟩ demoFloat demoPrims demoQ [] [] fillText (fun _ => none) () 0 k = some (.stopped m .halt) ∧
      m.vm.out = [50, 10] := by
  refine ⟨fillText_gram _ some (fun _ => rfl) (fun _ => rfl) rfl rfl, by rfl, by decide +kernel, 1000, ?_⟩
  obtain ⟨ts, h1, h2⟩ := fillText_gram (fun _ => 0) (foldNode demoFloat) (fun _ => rfl) (fun _ => rfl) (by rfl) (by rfl)
  have h3 := (C86_grammar ⟨fun _ => 0, foldNode demoFloat⟩ fillText _).2 ⟨ts, h1, h2⟩
  have h4 : gitemsOf fillTree 0 = some fillItems := by rfl
  have hd : demoRunG fillItems 1000 = some ([50, 10], .halt) := by decide +kernel
  rw [demoRunG] at hd
  rw [executeGItems, buildGItems, h3]; dsimp only; rw [h4]; dsimp only
  cases hc : compileGItems [] fillItems [] with
  | none => rw [hc] at hd; simp at hd
  | some image =>
    rw [hc] at hd
    simp only [Option.bind_some] at hd
    dsimp only
    cases hl : FVM.load image (fun _ => none) () 0 with
    | none => rw [hl] at hd; simp at hd
    | some p =>
      obtain ⟨m, K⟩ := p
      rw [hl] at hd
      simp only [Option.bind_some] at hd
      dsimp only
      cases hr : FVM.run demoFloat demoPrims demoQ image K 1000 m with
      | next m => rw [hr] at hd; simp at hd
      | stop m e =>
        rw [hr] at hd
        simp only [Option.some.injEq, Prod.mk.injEq] at hd
        obtain ⟨h5, rfl⟩ := hd
        exact ⟨m, rfl, h5⟩

/-- `fn g(x) { return x; }  fn h(x) { return g; }` -/
def curryFns : List FStmt := [.fnDecl (word "g") 0 [word "x"] (.of [.ret (.ctx true (.var (word "x")))]),
  .fnDecl (word "h") 1 [word "x"] (.of [.ret (.ctx true (.var (word "g")))])]

/-- `h(1)(2)` -/
def curryExpr : FExpr := .call (.call (.var (word "h")) (.of [.lit (.int 1)])) (.of [.lit (.int 2)])

/-- C124, second counterexample: `let a, let b = h(1)(2)`, where `h` gives the function `g`: the call `h(1)` gives `g` and `undef`, and it is `undef` that is called: a type error.  With
`let a = h(1)(2)` all is well. -/
theorem C124_callee_counterexample :
    demoRunG (curryFns.map .stmt ++ [.fill [.let_ (word "a"), .let_ (word "b")] .nil 2 curryExpr, .stmt (.echo (.var (word "a")))]) 1000 = some ([], .type) ∧
    demoRunG (curryFns.map .stmt ++ [.stmt (.let_ (word "a") (.ctx false curryExpr)), .stmt (.echo (.var (word "a")))]) 1000 = some ([50, 10], .halt) := by
  refine ⟨?_, ?_⟩ <;> decide +kernel

/-- a call without calls among its arguments fills both places: `let a, let b = f(1, 2, 3)` -/
example : demoRunG (fillFns.map .stmt ++ [.fill [.let_ (word "a"), .let_ (word "b")] .nil 2 (.call (.var (word "f")) (.of [.lit (.int 1), .lit (.int 2), .lit (.int 3)])),
    .stmt (.echo (.var (word "a")))]) 1000 = some ([51, 10], .halt) := by decide +kernel

/-- such a call as `C124_call_partial` speaks of: `f(x, g(1) as the last argument)` -/
example : (FExpr.var (word "f")).sealed = true ∧ (FExprs.of [.var (word "x"), .ctx true (.call (.var (word "g")) (.of [.lit (.int 1)]))]).sealed = true ∧
    (FExprs.of [.call (.var (word "g")) (.of [.lit (.int 1)]), .lit (.int 2)]).sealed = false := by decide +kernel

end Yasl
