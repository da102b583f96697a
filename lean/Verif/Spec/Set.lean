import Verif.Model.Set
import Verif.Spec.Table
/-! # Specification of sets -/
namespace Yasl

/-- A class of values in which `==` is identity: hashable, not `undef`, NaN or −0.0, and no two different members are
equal (so it does not contain both an int and the equal float). -/
def EqIdent (U : Val → Prop) : Prop := ∀ x, U x → GoodKey x ∧ ∀ y, U y → isEqual x y = true → x = y

/-- The set denoted by a history, starting from `m`. -/
def SOp.apply (m : Val → Prop) : SOp → Val → Prop
  | .add x => fun y => y = x ∨ m y
  | .rm x => fun y => y ≠ x ∧ m y

/-- The set denoted by a history starting with `m`. -/
def memFrom (m : Val → Prop) (ops : List SOp) : Val → Prop := ops.foldl SOp.apply m
/-- The set denoted by a history on a new set. -/
def memOf (ops : List SOp) : Val → Prop := memFrom (fun _ => False) ops

/-- The element an operation is about. -/
def SOp.elem : SOp → Val
  | .add x => x
  | .rm x => x

/-- Every removal removes a member. -/
def removesMember : (Val → Prop) → List SOp → Prop
  | _, [] => True
  | m, .add x :: ops => removesMember ((SOp.add x).apply m) ops
  | m, .rm x :: ops => m x ∧ removesMember ((SOp.rm x).apply m) ops

/-- `memOf` is what it should be: the last operation about `x` is an addition. -/
theorem memOf_iff (ops : List SOp) (x : Val) :
    memOf ops x ↔ ∃ pre post, ops = pre ++ SOp.add x :: post ∧ SOp.rm x ∉ post := by
  have gen : ∀ (ops : List SOp) (m : Val → Prop), memFrom m ops x ↔
      (∃ pre post, ops = pre ++ SOp.add x :: post ∧ SOp.rm x ∉ post) ∨ (m x ∧ SOp.rm x ∉ ops) := by
    intro ops
    induction ops with
    | nil => intro m; simp [memFrom]
    | cons op ops ih =>
      intro m
      have : memFrom m (op :: ops) = memFrom (op.apply m) ops := rfl
      rw [this, ih]
      constructor
      · rintro (⟨pre, post, rfl, h⟩ | ⟨h, hn⟩)
        · exact .inl ⟨op :: pre, post, rfl, h⟩
        · cases op with
          | add y =>
            rcases h with rfl | h
            · exact .inl ⟨[], ops, rfl, hn⟩
            · exact .inr ⟨h, by simp [hn]⟩
          | rm y => exact .inr ⟨h.2, by simp [hn, h.1]⟩
      · rintro (⟨pre, post, he, h⟩ | ⟨h, hn⟩)
        · cases pre with
          | nil => injection he with h1 h2; subst h1 h2; exact .inr ⟨.inl rfl, h⟩
          | cons a pre => injection he with h1 h2; subst h1 h2; exact .inl ⟨pre, post, rfl, h⟩
        · rw [List.mem_cons, not_or] at hn
          refine .inr ⟨?_, hn.2⟩
          cases op with
          | add y => exact .inr h
          | rm y => exact ⟨fun e => hn.1 (by rw [e]), h⟩
  have := gen ops (fun _ => False)
  simpa [memOf] using this

end Yasl
