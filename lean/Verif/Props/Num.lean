import Verif.Model.Num
import Verif.Props.Math
import Mathlib.Data.List.Forall2
import Mathlib.Tactic.IntervalCases
/-! # C52, C71, C74, C75: numbers and their textual form -/
set_option autoImplicit false
namespace Yasl

/-! ## Specification -/

/-- The character of a digit: `0`…`9`, then letters (upper or lower case). -/
def digitByte (d : Nat) (upper : Bool) : Byte :=
  if d < 10 then BitVec.ofNat 8 (48 + d) else if upper then BitVec.ofNat 8 (65 + (d - 10)) else BitVec.ofNat 8 (97 + (d - 10))

/-- `s` is the text of the digits `ds` in the given base. -/
def DigitText (base : Nat) (s : List Byte) (ds : List Nat) : Prop :=
  List.Forall₂ (fun b d => d < base ∧ ∃ up, b = digitByte d up) s ds

/-- The number with the given digits, most significant first. -/
def numValue (base : Nat) (ds : List Nat) : Nat := ds.foldl (fun a d => a * base + d) 0

/-- The nearest 64-bit int. -/
def clamp64 (x : Int) : Int := max (-2 ^ 63) (min x (2 ^ 63 - 1))

/-! ## Lemmas -/

theorem digitVal_digitByte {base d : Nat} (hb : base ≤ 16) (hd : d < base) (up : Bool) : digitVal base (digitByte d up) = some d := by
  have h : d < 16 := by omega
  have key : ∀ d < 16, ∀ up, digitVal 16 (digitByte d up) = some d := by decide +kernel
  have := key d h up
  unfold digitVal at this ⊢
  simp only at this ⊢
  revert this
  cases (if 48 ≤ (digitByte d up).toNat ∧ (digitByte d up).toNat ≤ 57 then some ((digitByte d up).toNat - 48)
    else if 97 ≤ (digitByte d up).toNat ∧ (digitByte d up).toNat ≤ 122 then some ((digitByte d up).toNat - 87)
    else if 65 ≤ (digitByte d up).toNat ∧ (digitByte d up).toNat ≤ 90 then some ((digitByte d up).toNat - 55) else none) with
  | none => simp
  | some v =>
    simp only [Option.bind_some]
    split
    · intro h'; simp only [Option.some.injEq] at h'; subst h'; rw [if_pos hd]
    · simp

/-- what a digit character is not -/
theorem digitByte_ne {d : Nat} (hd : d < 16) (up : Bool) :
    digitByte d up ≠ 0#8 ∧ digitByte d up ≠ 95#8 ∧ digitByte d up ≠ 45#8 ∧ digitByte d up ≠ 43#8 ∧ isSpaceC (digitByte d up) = false ∧
    digitByte d up ≠ 120#8 ∧ digitByte d up ≠ 88#8 := by
  have key : ∀ d < 16, ∀ up, digitByte d up ≠ 0#8 ∧ digitByte d up ≠ 95#8 ∧ digitByte d up ≠ 45#8 ∧ digitByte d up ≠ 43#8 ∧
    isSpaceC (digitByte d up) = false ∧ digitByte d up ≠ 120#8 ∧ digitByte d up ≠ 88#8 := by decide +kernel
  exact key d hd up

theorem decByte_ne {d : Nat} (hd : d < 10) (up : Bool) :
    digitByte d up ≠ 98#8 ∧ digitByte d up ≠ 66#8 ∧ isalphaC (digitByte d up) = .ok false := by
  have key : ∀ d < 10, ∀ up, digitByte d up ≠ 98#8 ∧ digitByte d up ≠ 66#8 ∧ isalphaC (digitByte d up) = .ok false := by decide +kernel
  exact key d hd up

theorem readDigits_text {base : Nat} (hb : base ≤ 16) {s : List Byte} {ds : List Nat} (h : DigitText base s ds) (acc : Nat) :
    readDigits base s acc = (ds.foldl (fun a d => a * base + d) acc, []) := by
  induction h generalizing acc with
  | nil => rfl
  | cons hd _ ih =>
    obtain ⟨h1, up, rfl⟩ := hd
    rw [readDigits, digitVal_digitByte hb h1]
    exact ih _

theorem strtollDigits_text {base : Nat} (hb : base ≤ 16) {s : List Byte} {ds : List Nat} (h : DigitText base s ds) (hne : ds ≠ []) :
    strtollDigits base s = some (numValue base ds, []) := by
  cases h with
  | nil => simp at hne
  | @cons b d s ds hd ht =>
    obtain ⟨h1, up, rfl⟩ := hd
    have hr : readDigits base (digitByte d up :: s) 0 = (numValue base (d :: ds), []) :=
      readDigits_text hb (.cons ⟨h1, up, rfl⟩ ht) 0
    unfold strtollDigits
    split
    · rename_i x y z heq
      simp only [List.cons.injEq] at heq
      obtain ⟨e1, rfl⟩ := heq
      rw [if_neg, ← e1, hr]
      rintro ⟨_, hx, _⟩
      cases ht with
      | cons h2 _ =>
        obtain ⟨h3, up2, rfl⟩ := h2
        have := digitByte_ne (lt_of_lt_of_le h3 hb) up2
        rcases hx with hx | hx
        · exact this.2.2.2.2.2.1 hx
        · exact this.2.2.2.2.2.2 hx
    · rename_i b rest _ heq
      simp only [List.cons.injEq] at heq
      obtain ⟨rfl, rfl⟩ := heq
      rw [digitVal_digitByte hb h1]
      simp [hr]
    · rename_i heq; simp at heq

/-- Text of an optionally signed numeral. -/
inductive Sign | none | plus | minus
/-- The characters of a sign. -/
def Sign.text : Sign → List Byte
  | .none => [] | .plus => [43#8] | .minus => [45#8]
/-- The effect of a sign. -/
def Sign.apply (x : Nat) : Sign → Int
  | .none | .plus => x
  | .minus => - (x : Int)

theorem strtoll_text {base : Nat} (hb : base ≤ 16) {s : List Byte} {ds : List Nat} (h : DigitText base s ds) (hne : ds ≠ []) (sg : Sign) :
    strtoll base (sg.text ++ s) = (clamp64 (sg.apply (numValue base ds)), []) := by
  have hd := strtollDigits_text hb h hne
  have c1 : ∀ v : Nat, min (v : Int) (2 ^ 63 - 1) = clamp64 v := by intro v; unfold clamp64; omega
  have c2 : ∀ v : Nat, max (-(v : Int)) (-2 ^ 63) = clamp64 (-(v : Int)) := by intro v; unfold clamp64; omega
  unfold strtoll
  cases sg with
  | none =>
    cases h with
    | nil => simp at hne
    | @cons b d s ds hbd ht =>
      obtain ⟨h1, up, rfl⟩ := hbd
      obtain ⟨_, _, n1, n2, n3, _⟩ := digitByte_ne (show d < 16 by omega) up
      simp only [Sign.text, List.nil_append, List.dropWhile_cons, n3, Bool.false_eq_true, if_false]
      split
      · rename_i heq; simp only [List.cons.injEq] at heq; exact absurd heq.1 n1
      · rename_i heq; simp only [List.cons.injEq] at heq; exact absurd heq.1 n2
      · rw [hd]; simp only [Sign.apply, c1]
  | plus =>
    have : isSpaceC 43#8 = false := by decide
    simp only [Sign.text, List.cons_append, List.nil_append, List.dropWhile_cons, this, Bool.false_eq_true, if_false]
    simp only [hd, Sign.apply, c1]
  | minus =>
    have : isSpaceC 45#8 = false := by decide
    simp only [Sign.text, List.cons_append, List.nil_append, List.dropWhile_cons, this, Bool.false_eq_true, if_false]
    simp only [hd, Sign.apply, c2]

theorem parseint64_decimal {s : List Byte} {ds : List Nat} (h : DigitText 10 s ds) (hne : ds ≠ []) (sg : Sign) :
    parseint64 (sg.text ++ s) = (clamp64 (sg.apply (numValue 10 ds)), true) := by
  have key := strtoll_text (by decide) h hne sg
  have : parseBase (sg.text ++ s) = strtoll 10 (sg.text ++ s) := by
    unfold parseBase
    split
    · rename_i x c rest heq
      have hx : ∃ d up, d < 10 ∧ x = digitByte d up := by
        cases sg with
        | none =>
          simp only [Sign.text, List.nil_append] at heq
          subst heq
          cases h with
          | cons _ h2 => cases h2 with
            | cons h3 _ => exact ⟨_, h3.2.choose, h3.1, h3.2.choose_spec⟩
        | plus => simp [Sign.text] at heq
        | minus => simp [Sign.text] at heq
      obtain ⟨d, up, hd, rfl⟩ := hx
      have n1 := digitByte_ne (show d < 16 by omega) up
      have n2 := decByte_ne hd up
      rw [if_neg (by rintro (h | h); exacts [n1.2.2.2.2.2.1 h, n1.2.2.2.2.2.2 h]), if_neg (by rintro (h | h); exacts [n2.1 h, n2.2.1 h]), heq]
    · rfl
  rw [parseint64, this, key]; rfl

theorem cstr_eq {s : List Byte} (h : ∀ b ∈ s, b ≠ 0#8) : cstr s = s := by
  induction s with
  | nil => rfl
  | cons b s ih =>
    have := ih fun x hx => h x (by simp [hx])
    unfold cstr at this ⊢
    rw [List.takeWhile_cons, if_pos (by simpa using h b (by simp)), this]

theorem DigitText.mem {base : Nat} {s : List Byte} {ds : List Nat} (h : DigitText base s ds) :
    ∀ b ∈ s, ∃ d up, d < base ∧ b = digitByte d up := by
  induction h with
  | nil => simp
  | cons hd _ ih =>
    intro b hb
    rcases List.mem_cons.1 hb with rfl | hb
    · exact ⟨_, hd.2.choose, hd.1, hd.2.choose_spec⟩
    · exact ih b hb

theorem DigitText.no_nul {base : Nat} (hb : base ≤ 16) {s : List Byte} {ds : List Nat} (h : DigitText base s ds) : ∀ b ∈ s, b ≠ 0#8 := by
  intro b hb'
  obtain ⟨d, up, hd, rfl⟩ := h.mem b hb'
  exact (digitByte_ne (by omega) up).1

/-- C71: a decimal numeral – digits with an optional sign, with underscores anywhere (for texts of three characters or more) – is converted to
its value, clamped to the range of ints. -/
theorem C71_decimal (s t : List Byte) (ds : List Nat) (sg : Sign) (ht : DigitText 10 t ds) (hne : ds ≠ [])
    (hs : s.filter (· ≠ 95#8) = sg.text ++ t) (hlen : s.length > 2 ∨ 95#8 ∉ s) :
    strToInt s = .ok (BitVec.ofInt 64 (clamp64 (sg.apply (numValue 10 ds)))) := by
  have hnul : ∀ b ∈ sg.text ++ t, b ≠ 0#8 := by
    intro b hb
    rcases List.mem_append.1 hb with hb | hb
    · cases sg <;> simp [Sign.text] at hb <;> subst hb <;> decide
    · exact ht.no_nul (by decide) b hb
  have hp := parseint64_decimal ht hne sg
  by_cases hl : s.length ≤ 2
  · have h95 : 95#8 ∉ s := by rcases hlen with h | h; omega; exact h
    have : s.filter (· ≠ 95#8) = s := by
      rw [List.filter_eq_self]
      intro b hb
      have : b ≠ 95#8 := by rintro rfl; exact h95 hb
      simpa using this
    rw [this] at hs
    unfold strToInt
    rw [if_pos hl, hs, cstr_eq hnul, hp]
  · unfold strToInt
    rw [if_neg hl]
    match s, hs, hl with
    | [], _, hl => simp at hl
    | [_], _, hl => simp at hl
    | c0 :: c1 :: rest, hs, _ =>
      simp only
      have hal : (if c0 = 48#8 then isalphaC c1 else Out.ok false) = .ok false := by
        split
        · by_cases h95 : c1 = 95#8
          · subst h95; decide +kernel
          · have hmem : c1 ∈ sg.text ++ t := by rw [← hs, List.mem_filter]; exact ⟨by simp, by simpa using h95⟩
            rcases List.mem_append.1 hmem with hm | hm
            · cases sg <;> simp [Sign.text] at hm <;> subst hm <;> decide +kernel
            · obtain ⟨d, up, hd, rfl⟩ := ht.mem c1 hm
              exact (decByte_ne hd up).2.2
        · rfl
      rw [hal, Out.bind_ok, hs, cstr_eq hnul, hp]; rfl

/-- C71: a numeral `0x…` or `0X…` with underscores anywhere after the prefix is converted to its value in base 16. -/
theorem C71_hexadecimal (x : Byte) (hx : x = 120#8 ∨ x = 88#8) (s t : List Byte) (ds : List Nat) (ht : DigitText 16 t ds) (hne : ds ≠ [])
    (hs : s.filter (· ≠ 95#8) = t) :
    strToInt (48#8 :: x :: s) = .ok (BitVec.ofInt 64 (clamp64 (numValue 16 ds))) := by
  subst hs
  have hlen : 0 < s.length := by
    cases s with
    | nil => cases ht; simp at hne
    | cons => simp
  have hal : isalphaC x = .ok true := by rcases hx with rfl | rfl <;> decide +kernel
  have hp : parseint64 (48#8 :: x :: s.filter (· ≠ 95#8)) = (clamp64 (numValue 16 ds), true) := by
    have key := strtoll_text (by decide) ht hne .none
    simp only [Sign.text, List.nil_append] at key
    have : parseBase (48#8 :: x :: s.filter (· ≠ 95#8)) = strtoll 16 (s.filter (· ≠ 95#8)) := by
      generalize s.filter (· ≠ 95#8) = t at *
      match t, ht with
      | [], ht => cases ht; simp at hne
      | c :: r, _ => simp only [parseBase, hx, if_true]
    rw [parseint64, this, key]; rfl
  have hnul : ∀ b ∈ 48#8 :: x :: s.filter (· ≠ 95#8), b ≠ 0#8 := by
    intro b hb
    rcases List.mem_cons.1 hb with rfl | hb
    · decide
    rcases List.mem_cons.1 hb with rfl | hb
    · rcases hx with rfl | rfl <;> decide
    · exact ht.no_nul (by decide) b hb
  unfold strToInt
  rw [if_neg (by simp only [List.length_cons]; omega)]
  simp only [if_true, hal, Out.bind_ok]
  rw [cstr_eq hnul, hp]

/-- C71: a numeral `0b…` or `0B…` with underscores anywhere after the prefix is converted to its value in base 2. -/
theorem C71_binary (x : Byte) (hx : x = 98#8 ∨ x = 66#8) (s t : List Byte) (ds : List Nat) (ht : DigitText 2 t ds) (hne : ds ≠ [])
    (hs : s.filter (· ≠ 95#8) = t) :
    strToInt (48#8 :: x :: s) = .ok (BitVec.ofInt 64 (clamp64 (numValue 2 ds))) := by
  subst hs
  have hlen : 0 < s.length := by
    cases s with
    | nil => cases ht; simp at hne
    | cons => simp
  have hal : isalphaC x = .ok true := by rcases hx with rfl | rfl <;> decide +kernel
  have hp : parseint64 (48#8 :: x :: s.filter (· ≠ 95#8)) = (clamp64 (numValue 2 ds), true) := by
    have key := strtoll_text (by decide) ht hne .none
    simp only [Sign.text, List.nil_append] at key
    have hx' : ¬ (x = 120#8 ∨ x = 88#8) := by rcases hx with rfl | rfl <;> decide
    have : parseBase (48#8 :: x :: s.filter (· ≠ 95#8)) = strtoll 2 (s.filter (· ≠ 95#8)) := by
      generalize s.filter (· ≠ 95#8) = t at *
      match t, ht with
      | [], ht => cases ht; simp at hne
      | c :: r, _ => simp only [parseBase, hx, hx', if_true, if_false]
    rw [parseint64, this, key]; rfl
  have hnul : ∀ b ∈ 48#8 :: x :: s.filter (· ≠ 95#8), b ≠ 0#8 := by
    intro b hb
    rcases List.mem_cons.1 hb with rfl | hb
    · decide
    rcases List.mem_cons.1 hb with rfl | hb
    · rcases hx with rfl | rfl <;> decide
    · exact ht.no_nul (by decide) b hb
  unfold strToInt
  rw [if_neg (by simp only [List.length_cons]; omega)]
  simp only [if_true, hal, Out.bind_ok]
  rw [cstr_eq hnul, hp]

/-- Cases: "-1_024", "0xBa_be", "0b101" and a number beyond the range. -/
example : strToInt [45#8, 49#8, 95#8, 48#8, 50#8, 52#8] = .ok (BitVec.ofInt 64 (-1024)) ∧
    strToInt [48#8, 120#8, 66#8, 97#8, 95#8, 98#8, 101#8] = .ok 0xBABE#64 ∧ strToInt [48#8, 98#8, 49#8, 48#8, 49#8] = .ok 5#64 ∧
    strToInt (List.replicate 30 57#8) = .ok 0x7FFFFFFFFFFFFFFF#64 := by decide +kernel
example : DigitText 16 [66#8, 97#8] [11, 10] :=
  .cons ⟨by decide, true, by decide⟩ (.cons ⟨by decide, false, by decide⟩ .nil)

/-- Not only numerals are accepted: whitespace, a second prefix, a sign after the prefix, and whatever follows a NUL byte. -/
theorem C71_accepts_more : strToInt [32#8, 32#8, 55#8] = .ok 7#64 ∧ strToInt [48#8, 120#8, 48#8, 120#8, 70#8] = .ok 15#64 ∧
    strToInt [48#8, 120#8, 45#8, 53#8] = .ok (BitVec.ofInt 64 (-5)) ∧ strToInt [55#8, 0#8, 97#8] = .ok 7#64 := by decide +kernel

/-! ## C52 -/

theorem decDigits_text (n : Nat) : ∃ ds, DigitText 10 (decDigits n) ds ∧ ds ≠ [] ∧ numValue 10 ds = n := by
  induction n using Nat.strong_induction_on with
  | _ n ih =>
    rw [decDigits]
    split
    · rename_i h
      exact ⟨[n], .cons ⟨h, false, by simp [digitByte, h]⟩ .nil, by simp, by simp [numValue]⟩
    · rename_i h
      obtain ⟨ds, h1, h2, h3⟩ := ih (n / 10) (by omega)
      have hm : n % 10 < 10 := Nat.mod_lt _ (by decide)
      refine ⟨ds ++ [n % 10], List.rel_append h1 (.cons ⟨hm, false, by simp [digitByte, hm]⟩ .nil), by simp, ?_⟩
      simp only [numValue, List.foldl_append, List.foldl_cons, List.foldl_nil] at h3 ⊢
      rw [h3]; omega

/-- C52: every int survives `tostr().toint()`. -/
theorem C52_int_roundtrip (i : BitVec 64) : strToInt (intToStr i) = .ok i := by
  obtain ⟨ds, h1, h2, h3⟩ := decDigits_text i.toInt.natAbs
  have r1 : -2 ^ 63 ≤ i.toInt := BitVec.le_toInt (x := i)
  have r2 : i.toInt < 2 ^ 63 := BitVec.toInt_lt (x := i)
  have no95 : ∀ b ∈ decDigits i.toInt.natAbs, b ≠ 95#8 := by
    intro b hb
    obtain ⟨d, up, hd, rfl⟩ := h1.mem b hb
    exact (digitByte_ne (by omega) up).2.1
  have filt : ∀ l : List Byte, (∀ b ∈ l, b ≠ 95#8) → l.filter (· ≠ 95#8) = l := by
    intro l hl
    rw [List.filter_eq_self]
    intro b hb; simpa using hl b hb
  by_cases hneg : i.toInt < 0
  · have hno : ∀ b ∈ 45#8 :: decDigits i.toInt.natAbs, b ≠ 95#8 := by
      intro b hb
      rcases List.mem_cons.1 hb with rfl | hb
      · decide
      · exact no95 b hb
    rw [intToStr, if_pos hneg, C71_decimal _ _ ds .minus h1 h2 (by rw [filt _ hno]; rfl) (.inr fun h => hno _ h rfl)]
    rw [h3, Sign.apply]
    have : clamp64 (-(i.toInt.natAbs : Int)) = i.toInt := by unfold clamp64; omega
    rw [this, BitVec.ofInt_toInt]
  · rw [intToStr, if_neg hneg, C71_decimal _ _ ds .none h1 h2 (by rw [filt _ no95]; rfl) (.inr fun h => no95 _ h rfl)]
    rw [h3, Sign.apply]
    have : clamp64 (i.toInt.natAbs : Int) = i.toInt := by unfold clamp64; omega
    rw [this, BitVec.ofInt_toInt]

/-- The text is the decimal numeral of the int. -/
theorem C52_int_text (i : BitVec 64) : ∃ (sg : Sign) (t : List Byte) (ds : List Nat), intToStr i = sg.text ++ t ∧ DigitText 10 t ds ∧ ds ≠ [] ∧
    sg.apply (numValue 10 ds) = i.toInt := by
  obtain ⟨ds, h1, h2, h3⟩ := decDigits_text i.toInt.natAbs
  by_cases hneg : i.toInt < 0
  · exact ⟨.minus, _, ds, by rw [intToStr, if_pos hneg]; rfl, h1, h2, by rw [h3, Sign.apply]; omega⟩
  · exact ⟨.none, _, ds, by rw [intToStr, if_neg hneg]; rfl, h1, h2, by rw [h3, Sign.apply]; omega⟩

example : intToStr 0x8000000000000000#64 = [45#8, 57#8, 50#8, 50#8, 51#8, 51#8, 55#8, 50#8, 48#8, 51#8, 54#8, 56#8, 53#8, 52#8, 55#8, 55#8, 53#8,
    56#8, 48#8, 56#8] := by decide +kernel

/-! ## C75 -/

theorem decDigits_length (k : Nat) : ∀ m, m < 10 ^ (k + 1) → (decDigits m).length ≤ k + 1 := by
  induction k with
  | zero => intro m hm; rw [decDigits, if_pos (by simpa using hm)]; simp
  | succ k ih =>
    intro m hm
    rw [decDigits]
    split
    · simp
    · have := ih (m / 10) (by rw [Nat.div_lt_iff_lt_mul (by decide), ← pow_succ]; exact hm)
      simp; omega

theorem numValue_append (base : Nat) (a b : List Nat) : numValue base (a ++ b) = numValue base a * base ^ b.length + numValue base b := by
  unfold numValue
  rw [List.foldl_append]
  generalize List.foldl (fun a d => a * base + d) 0 a = v
  have : ∀ (b : List Nat) (v w : Nat), b.foldl (fun a d => a * base + d) (v + w) = v * base ^ b.length + b.foldl (fun a d => a * base + d) w := by
    intro b
    induction b with
    | nil => intro v w; simp
    | cons d b ih =>
      intro v w
      rw [List.foldl_cons, List.foldl_cons, show (v + w) * base + d = v * base + (w * base + d) by ring, ih]
      simp only [List.length_cons]; ring
  simpa using this b v 0

theorem numValue_zeros (base z : Nat) : numValue base (List.replicate z 0) = 0 := by
  induction z with
  | zero => rfl
  | succ z ih => rw [List.replicate_succ, ← List.singleton_append, numValue_append, ih]; simp [numValue]

theorem DigitText.zeros (z : Nat) : DigitText 10 (List.replicate z 48#8) (List.replicate z 0) := by
  induction z with
  | zero => exact .nil
  | succ z ih => exact .cons ⟨by decide, false, by decide⟩ ih

theorem padded_text (m : Nat) (h : m < 10 ^ 6) : ∃ ds, DigitText 10 (List.replicate (6 - (decDigits m).length) 48#8 ++ decDigits m) ds ∧ ds.length = 6 ∧
    numValue 10 ds = m := by
  obtain ⟨ds, h1, h2, h3⟩ := decDigits_text m
  have hl := decDigits_length 5 m h
  have hlen : (decDigits m).length = ds.length := h1.length_eq
  refine ⟨List.replicate (6 - (decDigits m).length) 0 ++ ds, List.rel_append (DigitText.zeros _) h1, by simp; omega, ?_⟩
  rw [numValue_append, numValue_zeros, h3]; omega

/-- The loop that removes trailing zeros keeps one digit after the dot and ends at a nonzero one otherwise. -/
theorem trimZeros_spec (P F : List Byte) (hF : ∀ b ∈ F, b ≠ 46#8) : ∀ k, 1 ≤ k → k ≤ F.length →
    ∃ j z, 1 ≤ j ∧ j + z = k ∧ trimZeros (P ++ 46#8 :: F) (P.length + 1 + k) = some (P.length + 1 + j) ∧
      F.take k = F.take j ++ List.replicate z 48#8 ∧ (j = 1 ∨ F[j - 1]? ≠ some 48#8) := by
  intro k
  induction k with
  | zero => intro h; omega
  | succ k ih =>
    intro _ hk
    have hg : ∀ i, i < F.length → (P ++ 46#8 :: F)[P.length + 1 + i]? = F[i]? := by
      intro i hi
      rw [List.getElem?_append_right (by omega), show P.length + 1 + i - P.length = i + 1 by omega, List.getElem?_cons_succ]
    have e1 : P.length + 1 + (k + 1) = (P.length + k) + 2 := by omega
    have e0 : (P ++ 46#8 :: F)[P.length + k + 1]? = F[k]? := by rw [← hg k (by omega)]; congr 1; omega
    by_cases hz : F[k]? = some 48#8
    · by_cases hk0 : k = 0
      · subst hk0
        refine ⟨1, 0, le_refl _, rfl, ?_, by simp, .inl rfl⟩
        have e2 : (P ++ 46#8 :: F)[P.length]? = some 46#8 := by rw [List.getElem?_append_right (by omega)]; simp
        rw [e1, trimZeros, e0, hz]
        simp only [if_true, Nat.add_zero, e2, ne_eq, not_true_eq_false, if_false]
      · obtain ⟨j, z, h1, h2, h3, h4, h5⟩ := ih (by omega) (by omega)
        refine ⟨j, z + 1, h1, by omega, ?_, ?_, h5⟩
        · rw [e1, trimZeros, e0, hz]
          obtain ⟨k', rfl⟩ : ∃ k', k = k' + 1 := ⟨k - 1, by omega⟩
          have hget : (P ++ 46#8 :: F)[P.length + (k' + 1)]? = F[k']? := by rw [← hg k' (by omega)]; congr 1; omega
          rw [List.getElem?_eq_getElem (show k' < F.length by omega)] at hget
          have hne : F[k'] ≠ 46#8 := hF _ (List.getElem_mem _)
          simp only [if_true, hget, ne_eq, hne, not_false_eq_true]
          rw [← h3]; congr 1; omega
        · have : F.take (k + 1) = F.take k ++ [48#8] := by
            rw [List.take_add_one, hz]; rfl
          rw [this, h4, List.append_assoc, List.replicate_succ']
    · refine ⟨k + 1, 0, by omega, rfl, ?_, by simp, .inr (by simpa using hz)⟩
      have hlt : k < F.length := by omega
      rw [List.getElem?_eq_getElem hlt] at e0 hz
      have hne : F[k] ≠ 48#8 := fun h => hz (by rw [h])
      rw [e1, trimZeros, e0]
      simp only [hne, if_false]

/-- Rounding to the nearest multiple is off by at most half. -/
theorem round_acc (n K : Nat) (hK : 0 < K) :
    2 * |(((if 2 * (n % K) > K ∨ (2 * (n % K) = K ∧ n / K % 2 = 1) then n / K + 1 else n / K : Nat) : Int)) * K - n| ≤ K := by
  have hdm : (K : Int) * ((n / K : Nat) : Int) + ((n % K : Nat) : Int) = n := by exact_mod_cast Nat.div_add_mod n K
  have hr : n % K < K := Nat.mod_lt _ hK
  generalize n % K = r at *
  generalize n / K = q at *
  split
  · rename_i hcond
    have e : ((q + 1 : Nat) : Int) * K - n = K - r := by push_cast; linarith
    rw [e, abs_of_nonneg (by omega)]; omega
  · rename_i hcond
    have e : (q : Int) * K - n = - (r : Int) := by linarith
    rw [e, abs_neg, abs_of_nonneg (by omega)]; omega

/-- C75: the text of a finite float is an optional sign, digits, a dot and one to six digits, the last of them zero only if it is the only one,
and it denotes the decimal with six places nearest to the float: it is off by at most half of 10^-6 (values in units of 2^-1074). -/
theorem C75_float_text (b : BitVec 64) (hfin : fexp b ≠ 2047) :
    ∃ ti tf : List Byte, ∃ di df : List Nat,
      floatToStr b = .ok ((if fneg b then [45#8] else []) ++ ti ++ [46#8] ++ tf) ∧ DigitText 10 ti di ∧ DigitText 10 tf df ∧ di ≠ [] ∧
      1 ≤ df.length ∧ df.length ≤ 6 ∧ (df.length = 1 ∨ df.getLast? ≠ some 0) ∧
      2 * |((numValue 10 (di ++ df) * 10 ^ (6 - df.length) : Nat) : Int) * 2 ^ 1074 - (fmag b : Int) * 10 ^ 6| ≤ 2 ^ 1074 := by
  have hacc := round_acc (fmag b * 10 ^ 6) (2 ^ 1074) (by positivity)
  rw [Nat.cast_mul (fmag b), Nat.cast_pow 10, Nat.cast_pow 2, Nat.cast_ofNat (R := Int) (n := 10), Nat.cast_ofNat (R := Int) (n := 2)] at hacc
  generalize hq' : (if 2 * (fmag b * 10 ^ 6 % 2 ^ 1074) > 2 ^ 1074 ∨ (2 * (fmag b * 10 ^ 6 % 2 ^ 1074) = 2 ^ 1074 ∧ fmag b * 10 ^ 6 / 2 ^ 1074 % 2 = 1)
    then fmag b * 10 ^ 6 / 2 ^ 1074 + 1 else fmag b * 10 ^ 6 / 2 ^ 1074) = q' at hacc
  obtain ⟨di, hi1, hi2, hi3⟩ := decDigits_text (q' / 10 ^ 6)
  obtain ⟨df, hf1, hf2, hf3⟩ := padded_text (q' % 10 ^ 6) (Nat.mod_lt _ (by decide))
  generalize hFF : List.replicate (6 - (decDigits (q' % 10 ^ 6)).length) 48#8 ++ decDigits (q' % 10 ^ 6) = F at hf1
  have hFlen : F.length = 6 := by rw [hf1.length_eq, hf2]
  have hprint : printF b = ((if fneg b then [45#8] else []) ++ decDigits (q' / 10 ^ 6)) ++ 46#8 :: F := by
    unfold printF
    simp only [hq', hFF]
    simp
  have hF46 : ∀ x ∈ F, x ≠ 46#8 := by
    intro x hx
    obtain ⟨d, up, hd, rfl⟩ := hf1.mem x hx
    have key : ∀ d < 10, ∀ up, digitByte d up ≠ 46#8 := by decide +kernel
    exact key d hd up
  obtain ⟨j, z, h1, h2, h3, h4, h5⟩ := trimZeros_spec ((if fneg b then [45#8] else []) ++ decDigits (q' / 10 ^ 6)) F hF46 6 (by decide) (by omega)
  have hsz : (printF b).length = ((if fneg b then [45#8] else []) ++ decDigits (q' / 10 ^ 6)).length + 1 + 6 := by
    rw [hprint, List.length_append, List.length_cons, hFlen]
  have hdj : DigitText 10 (F.take j) (df.take j) := List.forall₂_take j hf1
  have hdlen : (df.take j).length = j := by rw [List.length_take, hf2]; omega
  refine ⟨decDigits (q' / 10 ^ 6), F.take j, di, df.take j, ?_, hi1, hdj, hi2, by omega, by omega, ?_, ?_⟩
  · unfold floatToStr
    rw [if_neg hfin]
    simp only
    rw [hsz, hprint, h3]
    show Out.ok _ = Out.ok _
    rw [Out.ok.injEq]
    rw [List.take_append, List.take_of_length_le (by omega)]
    rw [show ∀ n : Nat, n + 1 + j - n = j + 1 by intro n; omega, List.take_succ_cons]
    simp
  · rcases h5 with h5 | h5
    · left; omega
    · right
      intro hl
      rw [List.getLast?_eq_getElem?, hdlen, List.getElem?_take, if_pos (by omega)] at hl
      have hjF : j - 1 < F.length := by omega
      have hjd : j - 1 < df.length := by omega
      have hrel := hf1.get hjF hjd
      rw [List.getElem?_eq_getElem hjd, Option.some.injEq] at hl
      simp only [List.get_eq_getElem] at hrel
      rw [hl] at hrel
      obtain ⟨_, up, hb⟩ := hrel
      apply h5
      rw [List.getElem?_eq_getElem hjF, hb]
      rfl
  · have hfull : numValue 10 (di ++ df.take j) * 10 ^ (6 - (df.take j).length) = q' := by
      have hzt : DigitText 10 (F.drop j) (df.drop j) := List.forall₂_drop j hf1
      have hFz : F.drop j = List.replicate z 48#8 := by
        have : F.take 6 = F := List.take_of_length_le (by omega)
        rw [this] at h4
        conv_lhs => rw [h4]
        rw [List.drop_append_of_le_length (by rw [List.length_take]; omega), List.drop_eq_nil_of_le (by rw [List.length_take]; omega), List.nil_append]
      have hdz : df.drop j = List.replicate z 0 := by
        rw [hFz] at hzt
        have key : ∀ d < 10, ∀ up, 48#8 = digitByte d up → d = 0 := by decide +kernel
        have : ∀ (z : Nat) (l : List Nat), DigitText 10 (List.replicate z 48#8) l → l = List.replicate z 0 := by
          intro z
          induction z with
          | zero => intro l h; cases h; rfl
          | succ z ih =>
            intro l h
            rw [List.replicate_succ] at h
            cases h with
            | cons hd ht =>
              obtain ⟨h1, up, h2⟩ := hd
              rw [key _ h1 up h2, ih _ ht, List.replicate_succ]
        exact this z _ hzt
      have hsplit : df = df.take j ++ List.replicate z 0 := by rw [← hdz, List.take_append_drop]
      have hv : numValue 10 (di ++ df) = q' := by
        rw [numValue_append, hi3, hf3, hf2]; omega
      rw [hsplit, ← List.append_assoc, numValue_append, numValue_zeros, List.length_replicate] at hv
      rw [hdlen, show 6 - j = z by omega]
      simpa using hv
    rw [hfull]
    exact hacc

/-- Cases: -3.75, 0.1, 1e300 … -/
example : floatToStr 0xC00E000000000000#64 = .ok [45#8, 51#8, 46#8, 55#8, 53#8] ∧ floatToStr 0x3FB999999999999A#64 = .ok [48#8, 46#8, 49#8] := by
  decide +kernel

/-- C75: infinities and NaN. -/
theorem C75_special (b : BitVec 64) (h : fexp b = 2047) :
    floatToStr b = .ok (if fman b ≠ 0 then [110#8, 97#8, 110#8] else if fneg b then [45#8, 105#8, 110#8, 102#8] else [105#8, 110#8, 102#8]) := by
  have h0 : fval 0 = 0 := by decide +kernel
  unfold floatToStr
  rw [if_pos h]
  by_cases hm : fman b = 0
  · have hn : fnan b = false := by simp [fnan, hm]
    have hmag : 0 < fmag b := by rw [fmag, if_neg (by omega)]; positivity
    rw [if_neg (not_not.2 hm)]
    by_cases hneg : fneg b = true
    · have hv : fval b < 0 := by rw [fval, if_pos hneg]; omega
      rw [if_neg (by rw [flt_iff, h0]; omega), if_pos (by rw [flt_iff, h0]; exact ⟨hn, by decide +kernel, hv⟩), if_pos hneg]
    · have hv : 0 < fval b := by rw [fval, if_neg hneg]; omega
      rw [if_pos (by rw [flt_iff, h0]; exact ⟨by decide +kernel, hn, hv⟩), if_neg hneg]
  · have hn : fnan b = true := by simp [fnan, hm, h]
    rw [if_neg (by simp [flt_iff, hn]), if_neg (by simp [flt_iff, hn]), if_pos hm]

/-! ## C74 -/

/-- C74 is false for negative floats: `tofloat` of the text of any negative float (for example -1.5) is NaN. -/
theorem C74_negative_lost (strtod : List Byte → BitVec 64) (b : BitVec 64) (hfin : fexp b ≠ 2047) (hneg : fneg b = true) :
    ∃ s, floatToStr b = .ok s ∧ strToFloat strtod s = .ok someNan := by
  obtain ⟨ti, tf, di, df, h, _⟩ := C75_float_text b hfin
  refine ⟨_, h, ?_⟩
  rw [hneg]
  simp only [if_true, List.cons_append, List.nil_append, strToFloat]
  have : isdigitC 45#8 = .ok false := by decide +kernel
  rw [this]; rfl

/-- C74 is false for small floats: the text of 1e-7 is "0.0". -/
theorem C74_small_lost : floatToStr 0x3E7AD7F29ABCAF48#64 = .ok [48#8, 46#8, 48#8] := by decide +kernel

theorem isValidDoubleLoop_digits {s : List Byte} {ds : List Nat} (h : DigitText 10 s ds) : ∀ (rest : List Byte) (prev : Option Byte) (hd he : Bool),
    ∃ p, isValidDoubleLoop (s ++ rest) prev hd he = isValidDoubleLoop rest p hd he := by
  induction h with
  | nil => intro rest prev hd he; exact ⟨prev, rfl⟩
  | cons hb _ ih =>
    intro rest prev hd he
    obtain ⟨h1, up, rfl⟩ := hb
    obtain ⟨p, hp⟩ := ih rest (some (digitByte _ up)) hd he
    refine ⟨p, ?_⟩
    have key : ∀ d < 10, ∀ up, 48 ≤ (digitByte d up).toNat ∧ (digitByte d up).toNat ≤ 57 := by decide +kernel
    rw [List.cons_append, isValidDoubleLoop, if_pos (key _ h1 up), hp]

theorem dropUnderscores_eq {s : List Byte} (h : 95#8 ∉ s) : ∀ p, dropUnderscores s p = s := by
  induction s with
  | nil => intro p; rfl
  | cons c cs ih =>
    intro p
    simp only [List.mem_cons, not_or] at h
    rw [dropUnderscores, if_neg (by rintro ⟨rfl, _⟩; exact h.1 rfl), ih h.2]

/-- C74, restricted to non-negative finite floats: `tofloat` hands exactly the text written by `tostr` to the C library's `strtod`.  Missing: that
`strtod` reads back the value (C library), and negative floats, for which it is false. -/
theorem C74_float_roundtrip_partial (strtod : List Byte → BitVec 64) (b : BitVec 64) (hfin : fexp b ≠ 2047) (hneg : fneg b = false) :
    ∃ s, floatToStr b = .ok s ∧ strToFloat strtod s = .ok (strtod s) := by
  obtain ⟨ti, tf, di, df, h, ht, htf, hdi, hdf, _⟩ := C75_float_text b hfin
  rw [hneg] at h
  simp only [Bool.false_eq_true, if_false, List.nil_append] at h
  refine ⟨_, h, ?_⟩
  cases ht with
  | nil => simp at hdi
  | @cons c d ti di hc ht' =>
    have ht : DigitText 10 ti di := ht'
    obtain ⟨hd, up, rfl⟩ := hc
    have key : ∀ d < 10, ∀ up, isdigitC (digitByte d up) = .ok true ∧ 48 ≤ (digitByte d up).toNat ∧ (digitByte d up).toNat ≤ 57 := by decide +kernel
    have hmem : ∀ x ∈ ti ++ [46#8] ++ tf, x ≠ 95#8 ∧ x ≠ 0#8 := by
      intro x hx
      simp only [List.append_assoc, List.mem_append, List.mem_singleton] at hx
      rcases hx with hx | rfl | hx
      · obtain ⟨e, u, he, rfl⟩ := ht.mem x hx
        exact ⟨(digitByte_ne (by omega) u).2.1, (digitByte_ne (by omega) u).1⟩
      · decide
      · obtain ⟨e, u, he, rfl⟩ := htf.mem x hx
        exact ⟨(digitByte_ne (by omega) u).2.1, (digitByte_ne (by omega) u).1⟩
    have hall : DigitText 10 (digitByte d up :: ti) (d :: di) := .cons ⟨hd, up, rfl⟩ ht
    have hvalid : isValidDouble (digitByte d up :: (ti ++ [46#8] ++ tf)) = true := by
      unfold isValidDouble
      obtain ⟨p, hp⟩ := isValidDoubleLoop_digits hall ([46#8] ++ tf) none false false
      obtain ⟨p', hp'⟩ := isValidDoubleLoop_digits htf [] (some 46#8) true false
      have : isValidDoubleLoop (digitByte d up :: (ti ++ [46#8] ++ tf)) none false false = some true := by
        rw [← List.append_assoc] at hp
        have e : digitByte d up :: (ti ++ [46#8] ++ tf) = digitByte d up :: ti ++ [46#8] ++ tf := by simp
        rw [e, hp, List.singleton_append, isValidDoubleLoop, if_neg (by decide), if_pos rfl]
        simp only [Bool.or_self, Bool.false_eq_true, if_false]
        rw [List.append_nil] at hp'
        rw [hp']; rfl
      rw [this]
      simp only [Bool.true_and]
      have hne : tf ≠ [] := by
        intro h0
        have := htf.length_eq
        rw [h0] at this
        simp at this; omega
      have hlast : (digitByte d up :: (ti ++ [46#8] ++ tf)).getLast? = some (tf.getLast hne) := by
        rw [← List.cons_append, List.getLast?_append, List.getLast?_eq_getLast_of_ne_nil hne]; rfl
      rw [hlast]
      obtain ⟨e, u, he, heq⟩ := htf.mem _ (List.getLast_mem hne)
      simp only [heq]
      exact decide_eq_true (key e he u).2
    simp only [List.cons_append, strToFloat, (key d hd up).1, Out.bind_ok, if_true]
    rw [dropUnderscores_eq (fun hx => (hmem _ hx).1 rfl), cstr_eq, hvalid]
    · rfl
    · intro x hx
      rcases List.mem_cons.1 hx with rfl | hx
      · exact (digitByte_ne (by omega) up).1
      · exact (hmem x hx).2

/-- the theorems on "-1_5" and the floats -1.5 and 1.5 -/
example : strToInt [45#8, 49#8, 95#8, 53#8] = .ok (BitVec.ofInt 64 (-15)) := C71_decimal [45#8, 49#8, 95#8, 53#8] [49#8, 53#8] [1, 5] .minus
  (.cons ⟨by decide, false, by decide⟩ (.cons ⟨by decide, false, by decide⟩ .nil)) (by simp) (by decide +kernel) (.inl (by decide))
example := C74_negative_lost (fun _ => 0) 0xBFF8000000000000#64 (by decide +kernel) (by decide +kernel)
example := C74_float_roundtrip_partial (fun _ => 0) 0x3FF8000000000000#64 (by decide +kernel) (by decide +kernel)

end Yasl
