import Verif.Model.Modules
import Verif.Props.Consts
set_option autoImplicit false
/-!
# C98: requiring modules does not disturb the literals of loaded code
-/
namespace Yasl

mutual
/-- All literals and names of a module and of those it requires. -/
def Mod.all : Mod → List Val
  | .mk libs lits _ body => libs ++ lits ++ body.all
/-- See `Mod.all`. -/
def Mods.all : Mods → List Val
  | .nil => []
  | .cons m ms => m.all ++ ms.all
end

mutual
/-- The literals of each module, in the order of loading. -/
def Mod.texts : Mod → List (List Val)
  | .mk _ lits _ body => lits :: body.texts
/-- See `Mod.texts`. -/
def Mods.texts : Mods → List (List Val)
  | .nil => []
  | .cons m ms => m.texts ++ ms.texts
end

/-- With the constants `K`, every loaded module finds its literals where its code looks for them. -/
def ModLog.Sees (log : ModLog) (K : List Val) : Prop :=
  ∀ e ∈ log, e.1.length = e.2.length ∧ ∀ (j : Nat) (i : BitVec 64) (v : Val), e.1[j]? = some i → e.2[j]? = some v → K[i.toNat]? = some v

theorem ModLog.Sees.mono {log : ModLog} {K K' : List Val} (h : log.Sees K) (hp : K <+: K') : log.Sees K' := by
  intro e he
  refine ⟨(h e he).1, fun j i v hi hv => ?_⟩
  have := (h e he).2 j i v hi hv
  have hlt : i.toNat < K.length := by
    by_contra hc
    rw [List.getElem?_eq_none (by omega)] at this; cases this
  rw [(List.prefix_iff_getElem?.1 hp _ hlt), ← this]
  simp

/-- Size of the header entries. -/
def hsize (vs : List Val) : Nat := (vs.flatMap headerEntry).length

theorem hsize_append (a b : List Val) : hsize (a ++ b) = hsize a + hsize b := by simp [hsize]

theorem internAll_pool {f : Nat} (hf : 2 ^ 33 ≤ f) (vs : List Val) {c : Consts} {p : List Val} (h : ConstsRep f c p) (hl : p.length + vs.length ≤ 2 ^ 29)
    (hv : ∀ v ∈ vs, v.Literal ∧ GoodKey v) :
    ∃ is c' p', c.internAll f vs = some (is, c') ∧ ConstsRep f c' p' ∧ p <+: p' ∧ p'.length ≤ p.length + vs.length ∧ hsize p' ≤ hsize p + hsize vs ∧
      is.length = vs.length ∧ ∀ (j : Nat) (i : BitVec 64) (v : Val), is[j]? = some i → vs[j]? = some v → p'[i.toNat]? = some v := by
  obtain ⟨is, c', p', h1, h2, h3, h4, h5, h6, -, h7⟩ := internAll_spec hf vs (s := { CState.initial with pool := p }) h hl hv
  refine ⟨is, c', p', h1, h2, h3, h4, h5, h6, fun j i v hi hv => ?_⟩
  have := congrArg (fun l => l[j]?) h7
  simp only [List.getElem?_map, hi, hv, Option.map_some, Option.some.injEq] at this
  exact this

mutual
theorem Mod.load_spec {f : Nat} (hf : 2 ^ 33 ≤ f) : ∀ (m : Mod) {c : Consts} {p : List Val}, ConstsRep f c p → p.length + m.all.length ≤ 2 ^ 29 →
    hsize p + hsize m.all < 2 ^ 63 → (∀ v ∈ m.all, v.Literal ∧ GoodKey v) →
    ∃ c' p' log, m.load f c = some (c', p', log) ∧ ConstsRep f c' p' ∧ p <+: p' ∧ p'.length ≤ p.length + m.all.length ∧ hsize p' ≤ hsize p + hsize m.all ∧
      log.Sees p' ∧ log.map Prod.snd = m.texts
  | .mk libs lits code body, c, p, h, hl, hs, hv => by
    simp only [Mod.all, List.length_append, hsize_append] at hl hs hv ⊢
    obtain ⟨_, c1, p1, a1, a2, a3, a4, a5, -, -⟩ := internAll_pool hf libs h (by omega) fun v hv' => hv v (by simp [hv'])
    obtain ⟨is, c2, p2, b1, b2, b3, b4, b5, b6, b7⟩ := internAll_pool hf lits a2 (by omega) fun v hv' => hv v (by simp [hv'])
    have hK : readConstants c2.strings.count (c2.header ++ code) = some p2 := by
      rw [b2.count (by omega), b2.header]
      exact readConstants_pool p2 (fun v hv => (b2.lit v hv).1) code (by unfold hsize at *; omega)
    obtain ⟨c3, p3, log, d1, d2, d3, d4, d5, d6, d7⟩ := Mods.run_spec hf body b2 (by omega) (by omega) fun v hv' => hv v (by simp [hv'])
    refine ⟨c3, p3, (is, lits) :: log, ?_, d2, (a3.trans b3).trans d3, by omega, by omega, ?_, by simp [Mod.texts, d7]⟩
    · simp [Mod.load, a1, b1, hK, d1]
    · intro e he
      rcases List.mem_cons.1 he with rfl | he
      · have h0 : ModLog.Sees [(is, lits)] p2 := by
          intro e he
          rw [List.mem_singleton] at he
          subst he
          exact ⟨b6, b7⟩
        exact (h0.mono d3) _ (by simp)
      · exact d6 e he
theorem Mods.run_spec {f : Nat} (hf : 2 ^ 33 ≤ f) : ∀ (ms : Mods) {c : Consts} {p : List Val}, ConstsRep f c p → p.length + ms.all.length ≤ 2 ^ 29 →
    hsize p + hsize ms.all < 2 ^ 63 → (∀ v ∈ ms.all, v.Literal ∧ GoodKey v) →
    ∃ c' p' log, ms.run f c p = some (c', p', log) ∧ ConstsRep f c' p' ∧ p <+: p' ∧ p'.length ≤ p.length + ms.all.length ∧ hsize p' ≤ hsize p + hsize ms.all ∧
      log.Sees p' ∧ log.map Prod.snd = ms.texts
  | .nil, c, p, h, hl, hs, hv => ⟨c, p, [], rfl, h, List.prefix_rfl, by omega, by omega, by intro e he; simp at he, rfl⟩
  | .cons m ms, c, p, h, hl, hs, hv => by
    simp only [Mods.all, List.length_append, hsize_append] at hl hs hv ⊢
    obtain ⟨c1, p1, l1, a1, a2, a3, a4, a5, a6, a7⟩ := Mod.load_spec hf m h (by omega) (by omega) fun v hv' => hv v (by simp [hv'])
    obtain ⟨c2, p2, l2, b1, b2, b3, b4, b5, b6, b7⟩ := Mods.run_spec hf ms a2 (by omega) (by omega) fun v hv' => hv v (by simp [hv'])
    refine ⟨c2, p2, l1 ++ l2, by simp [Mods.run, a1, b1], b2, a3.trans b3, by omega, by omega, ?_, by simp [Mods.texts, a7, b7]⟩
    intro e he
    rcases List.mem_append.1 he with he | he
    · exact (a6.mono b3) e he
    · exact b6 e he
end

/-- **C98**, the part that holds: a program that requires any tree of modules.  Loading completes; every module is loaded once for each time it is required, in order;
and with the constants the machine is left with, the program and every module loaded on the way find each of their literals at the index compiled into their code.
Missing: NaN and -0.0 (see C31). -/
theorem C98_modules_partial (m : Mod) (hv : ∀ v ∈ m.all, v.Literal ∧ GoodKey v) (hl : m.all.length ≤ 2 ^ 29) (hs : (m.all.flatMap headerEntry).length < 2 ^ 63)
    (f : Nat) (hf : 2 ^ 33 ≤ f) :
    ∃ c K log, m.load f Consts.new = some (c, K, log) ∧ log.map Prod.snd = m.texts ∧ log.Sees K := by
  obtain ⟨c, K, log, h1, -, -, -, -, h6, h7⟩ := Mod.load_spec hf m (c := Consts.new) (p := []) ⟨by simp, by simp, rfl, rfl⟩ (by simpa using hl)
    (by simpa [hsize] using hs) hv
  exact ⟨c, K, log, h1, h7, h6⟩

/-- **C98**, one more module: after any program, requiring a module (with whatever it requires) adds constants and changes none, so code that is already loaded and
its constants are not disturbed. -/
theorem C98_require_keeps_partial (m m' : Mod) (hv : ∀ v ∈ m.all ++ m'.all, v.Literal ∧ GoodKey v) (hl : (m.all ++ m'.all).length ≤ 2 ^ 29)
    (hs : ((m.all ++ m'.all).flatMap headerEntry).length < 2 ^ 63) (f : Nat) (hf : 2 ^ 33 ≤ f) :
    ∃ c K log c' K' log', m.load f Consts.new = some (c, K, log) ∧ m'.load f c = some (c', K', log') ∧ K <+: K' ∧ (log ++ log').Sees K' := by
  have hs' : hsize m.all + hsize m'.all < 2 ^ 63 := by rw [← hsize_append]; exact hs
  simp only [List.length_append] at hl
  obtain ⟨c, K, log, h1, h2, -, h4, h5, h6, -⟩ := Mod.load_spec hf m (c := Consts.new) (p := []) ⟨by simp, by simp, rfl, rfl⟩ (by simp only [List.length_nil]; omega)
    (by simp only [hsize, List.flatMap_nil, List.length_nil] at hs' ⊢; omega) fun v hv' => hv v (by simp [hv'])
  simp only [List.length_nil, hsize, List.flatMap_nil] at h4 h5
  obtain ⟨c', K', log', g1, -, g3, -, -, g6, -⟩ := Mod.load_spec hf m' h2 (by omega) (by unfold hsize at *; omega) fun v hv' => hv v (by simp [hv'])
  refine ⟨c, K, log, c', K', log', h1, g1, g3, fun e he => ?_⟩
  rcases List.mem_append.1 he with he | he
  · exact (h6.mono g3) e he
  · exact g6 e he

/-- A program with two literals requires a module with three that requires another. -/
def demoMods : Mod :=
  .mk [] [.str [104, 105], .int 1000] [1, 2] (.cons (.mk [.str [105, 111]] [.int 7, .str [104, 105], .int 2000] [3] (.cons (.mk [.str [105, 111]] [.int 9] [] .nil) .nil))
    (.cons (.mk [] [.int 7, .int 3000] [] .nil) .nil))

example : (∀ v ∈ demoMods.all, v.Literal ∧ GoodKey v) ∧ demoMods.all.length = 10 ∧
    (demoMods.load 100 Consts.new).map (fun r => (r.2.1, r.2.2.map Prod.fst)) =
      some ([.str [104, 105], .int 1000, .str [105, 111], .int 7, .int 2000, .int 9, .int 3000], [[0, 1], [3, 0, 4], [5], [3, 6]]) := by
  refine ⟨?_, rfl, by decide +kernel⟩
  intro v hv
  simp only [demoMods, Mod.all, Mods.all, List.mem_cons, List.not_mem_nil, or_false, List.mem_append, List.append_assoc, List.append_nil, List.nil_append] at hv
  rcases hv with (rfl | rfl) | rfl | (rfl | rfl | rfl) | rfl | rfl | (rfl | rfl) <;> exact ⟨trivial, by trivial⟩

end Yasl
