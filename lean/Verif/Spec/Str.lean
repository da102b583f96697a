import Verif.Model.Value
/-!
# Specification of the string methods

Independent of the model: byte strings are `List Byte`, and each definition says what a method is documented to compute.
-/
namespace Yasl

/-- `Cut a s ps`: `ps` are the pieces of `s` between the leftmost non-overlapping occurrences of `a`: if `a` does not occur, `s`
itself; otherwise the bytes before the first occurrence of `a`, and the pieces of what follows this occurrence. -/
inductive Cut (a : List Byte) : List Byte → List (List Byte) → Prop
  | last (s : List Byte) : ¬ a <:+: s → Cut a s [s]
  | cons (p r : List Byte) (ps : List (List Byte)) :
      (∀ i < p.length, ¬ a <+: (p ++ a ++ r).drop i) → Cut a r ps → Cut a (p ++ a ++ r) (p :: ps)

/-- The whitespace bytes: space, `\t`, `\n`, `\v`, `\r`. -/
def IsSpace (c : Byte) : Prop := c ∈ [0x20#8, 0x09#8, 0x0A#8, 0x0B#8, 0x0D#8]

/-- `Words s ws`: `ws` are the maximal runs of non-whitespace bytes of `s`, in order. -/
inductive Words : List Byte → List (List Byte) → Prop
  | nil (s : List Byte) : (∀ c ∈ s, IsSpace c) → Words s []
  | cons (sp w r : List Byte) (ws : List (List Byte)) :
      (∀ c ∈ sp, IsSpace c) → w ≠ [] → (∀ c ∈ w, ¬ IsSpace c) → (∀ c, r.head? = some c → IsSpace c) →
      Words r ws → Words (sp ++ w ++ r) (w :: ws)

/-- `n` repeated `k` times. -/
def repeatBytes (k : Nat) (n : List Byte) : List Byte := (List.replicate k n).flatten

/-- ASCII upper case of a byte. -/
def asciiUpper (c : Byte) : Byte := if 97 ≤ c.toNat ∧ c.toNat ≤ 122 then BitVec.ofNat 8 (c.toNat - 32) else c
/-- ASCII lower case of a byte. -/
def asciiLower (c : Byte) : Byte := if 65 ≤ c.toNat ∧ c.toNat ≤ 90 then BitVec.ofNat 8 (c.toNat + 32) else c
/-- ASCII letters. -/
def IsLetter (c : Byte) : Prop := (65 ≤ c.toNat ∧ c.toNat ≤ 90) ∨ (97 ≤ c.toNat ∧ c.toNat ≤ 122)
/-- ASCII digits. -/
def IsDigit (c : Byte) : Prop := 48 ≤ c.toNat ∧ c.toNat ≤ 57

instance (c : Byte) : Decidable (IsLetter c) := by unfold IsLetter; infer_instance
instance (c : Byte) : Decidable (IsDigit c) := by unfold IsDigit; infer_instance

end Yasl
