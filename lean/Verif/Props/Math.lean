import Verif.Model.Math
import Verif.Props.Value
import Verif.Props.Prime
import Verif.Proofs.BigPrime
import Mathlib.Tactic.Linarith
import Mathlib.Tactic.Ring
import Mathlib.Tactic.Positivity
/-! # C63, C64, C72, C73: the math library and int/float conversions -/
set_option autoImplicit false
namespace Yasl

/-! ## C63 -/

theorem toInt_ofNat_small {n : Nat} (h : n < 2 ^ 63) : (BitVec.ofNat 64 n).toInt = n := by
  rw [BitVec.toInt_eq_toNat_cond, BitVec.toNat_ofNat]
  split <;> omega

theorem eq_ofNat_of_nonneg (a : BitVec 64) (h : 0 ≤ a.toInt) : a = BitVec.ofNat 64 a.toInt.toNat ∧ a.toInt.toNat < 2 ^ 63 := by
  have h2 : a.toInt < 2 ^ 63 := BitVec.toInt_lt (x := a)
  have h3 : a.toInt.toNat < 2 ^ 63 := by omega
  refine ⟨BitVec.eq_of_toInt_eq ?_, h3⟩
  rw [toInt_ofNat_small h3, Int.toNat_of_nonneg h]

theorem cRem_nat {m n : Nat} (hm : m < 2 ^ 63) (hn : n < 2 ^ 63) (h0 : 0 < n) :
    cRem (BitVec.ofNat 64 m) (BitVec.ofNat 64 n) = .ok (BitVec.ofNat 64 (m % n)) := by
  unfold cRem
  rw [toInt_ofNat_small hm, toInt_ofNat_small hn, if_neg (by omega)]
  rfl

theorem gcdLoop_nat : ∀ (f m n : Nat), m < 2 ^ 63 → n < 2 ^ 63 → 0 < n → n ≤ f →
    gcdLoop f (BitVec.ofNat 64 m) (BitVec.ofNat 64 n) = some (.ok (BitVec.ofNat 64 (Nat.gcd m n))) := by
  intro f
  induction f with
  | zero => intro m n _ _ h0 hf; omega
  | succ f ih =>
    intro m n hm hn h0 hf
    rw [gcdLoop, cRem_nat hm hn h0, Run.bind_ok]
    have hlt := Nat.mod_lt m h0
    have hz : (BitVec.ofNat 64 (m % n) ≠ 0) ↔ m % n ≠ 0 := by
      rw [Ne, ← BitVec.toInt_inj, toInt_ofNat_small (lt_trans hlt hn)]
      simp; omega
    by_cases h : m % n = 0
    · rw [if_neg (by rw [hz]; simp [h])]
      congr 3
      exact (Nat.gcd_eq_right (Nat.dvd_of_mod_eq_zero h)).symm
    · rw [if_pos (hz.2 h), ih n (m % n) hn (lt_trans hlt hn) (by omega) (by omega)]
      congr 3
      rw [Nat.gcd_comm n, ← Nat.gcd_rec, Nat.gcd_comm]

theorem gcdHelper_spec (a b : BitVec 64) (ha : 0 < a.toInt) (hb : 0 < b.toInt) (f : Nat) (hf : a.toInt.toNat + b.toInt.toNat ≤ f) :
    gcdHelper f a b = some (.ok (BitVec.ofNat 64 (Nat.gcd a.toInt.toNat b.toInt.toNat))) := by
  obtain ⟨ea, la⟩ := eq_ofNat_of_nonneg a (by omega)
  obtain ⟨eb, lb⟩ := eq_ofNat_of_nonneg b (by omega)
  rw [gcdHelper]
  split
  · conv_lhs => rw [ea, eb]
    rw [gcdLoop_nat f _ _ lb la (by omega) (by omega), Nat.gcd_comm]
  · conv_lhs => rw [ea, eb]
    rw [gcdLoop_nat f _ _ la lb (by omega) (by omega)]

/-- The argument `v` is the int `n`, or a float whose integral part is `n`. -/
def Val.IntArg (v : Val) (n : BitVec 64) : Prop :=
  v = .int n ∨ ∃ b, v = .float b ∧ fnan b = false ∧ n.toInt = (fval b).tdiv (2 ^ 1074)

theorem argToInt_of_intArg {v : Val} {n : BitVec 64} (h : v.IntArg n) : argToInt v = .ok n := by
  rcases h with rfl | ⟨b, rfl, hb, hn⟩
  · rfl
  · have h1 : n.toInt < 2 ^ 63 := BitVec.toInt_lt (x := n)
    have h2 : -2 ^ 63 ≤ n.toInt := BitVec.le_toInt (x := n)
    rw [argToInt, floatToInt, hb]
    simp only [Bool.false_eq_true, if_false]
    rw [← hn, if_pos ⟨h2, h1⟩]
    simp

/-- C63: `math.gcd` of two positive arguments terminates and is their greatest common divisor. -/
theorem C63_gcd (x y : Val) (a b : BitVec 64) (hx : x.IntArg a) (hy : y.IntArg b) (ha : 0 < a.toInt) (hb : 0 < b.toInt) :
    ∃ g : BitVec 64, (∀ f, a.toInt.toNat + b.toInt.toNat ≤ f → mathGcd f x y = some (.ok (.int g))) ∧
      0 < g.toInt ∧ g.toInt ∣ a.toInt ∧ g.toInt ∣ b.toInt ∧ ∀ d : Int, d ∣ a.toInt → d ∣ b.toInt → d ≤ g.toInt := by
  have hpos : 0 < Nat.gcd b.toInt.toNat a.toInt.toNat := Nat.gcd_pos_of_pos_left _ (by omega)
  have hlt : Nat.gcd b.toInt.toNat a.toInt.toNat < 2 ^ 63 :=
    lt_of_le_of_lt (Nat.gcd_le_left _ (by omega)) (eq_ofNat_of_nonneg b (by omega)).2
  refine ⟨BitVec.ofNat 64 (Nat.gcd b.toInt.toNat a.toInt.toNat), fun f hf => ?_, ?_, ?_, ?_, ?_⟩
  · rw [mathGcd, argToInt_of_intArg hy, argToInt_of_intArg hx, Run.bind_ok, Run.bind_ok, if_neg (by omega),
      gcdHelper_spec b a hb ha f (by omega), Run.bind_ok]
  all_goals rw [toInt_ofNat_small hlt]
  · omega
  · have := Int.natCast_dvd_natCast.2 (Nat.gcd_dvd_right b.toInt.toNat a.toInt.toNat)
    rwa [show (a.toInt.toNat : Int) = a.toInt by omega] at this
  · have := Int.natCast_dvd_natCast.2 (Nat.gcd_dvd_left b.toInt.toNat a.toInt.toNat)
    rwa [show (b.toInt.toNat : Int) = b.toInt by omega] at this
  · intro d h1 h2
    rw [← show (a.toInt.toNat : Int) = a.toInt by omega] at h1
    rw [← show (b.toInt.toNat : Int) = b.toInt by omega] at h2
    have h1' := Int.natAbs_dvd_natAbs.2 h1
    have h2' := Int.natAbs_dvd_natAbs.2 h2
    simp only [Int.natAbs_natCast] at h1' h2'
    have := Nat.le_of_dvd hpos (Nat.dvd_gcd h2' h1')
    omega

example : Val.IntArg (.float 0x4028000000000000#64) 12#64 ∧ mathGcd 40 (.float 0x4028000000000000#64) (.int 18#64) = some (.ok (.int 6#64)) := by
  refine ⟨.inr ⟨_, rfl, by decide +kernel, by decide +kernel⟩, by decide +kernel⟩

/-- C63: for non-positive arguments the result is `undef`. -/
theorem C63_nonpositive (x y : Val) (a b : BitVec 64) (hx : x.IntArg a) (hy : y.IntArg b) (h : a.toInt ≤ 0 ∨ b.toInt ≤ 0) (f : Nat) :
    mathGcd f x y = some (.ok .undef) ∧ mathLcm f x y = some (.ok .undef) := by
  constructor
  · rw [mathGcd, argToInt_of_intArg hy, argToInt_of_intArg hx, Run.bind_ok, Run.bind_ok, if_pos (by omega)]
  · rw [mathLcm, argToInt_of_intArg hy, argToInt_of_intArg hx, Run.bind_ok, Run.bind_ok, if_pos (by omega)]

/-- C63, restricted: `math.lcm` is the least common multiple when the *product* of the arguments fits in 64 bits.  Missing: the
cases where only the lcm fits, for which the claim is false (next theorem). -/
theorem C63_lcm_partial (x y : Val) (a b : BitVec 64) (hx : x.IntArg a) (hy : y.IntArg b) (ha : 0 < a.toInt) (hb : 0 < b.toInt)
    (hp : a.toInt * b.toInt < 2 ^ 63) :
    ∃ l : BitVec 64, (∀ f, a.toInt.toNat + b.toInt.toNat ≤ f → mathLcm f x y = some (.ok (.int l))) ∧
      0 < l.toInt ∧ a.toInt ∣ l.toInt ∧ b.toInt ∣ l.toInt ∧ ∀ m : Int, 0 < m → a.toInt ∣ m → b.toInt ∣ m → l.toInt ≤ m := by
  obtain ⟨ea, la⟩ := eq_ofNat_of_nonneg a (by omega)
  obtain ⟨eb, lb⟩ := eq_ofNat_of_nonneg b (by omega)
  generalize hA : a.toInt.toNat = A at ea la
  generalize hB : b.toInt.toNat = B at eb lb
  have eA : a.toInt = A := by omega
  have eB : b.toInt = B := by omega
  have hgpos : 0 < Nat.gcd B A := Nat.gcd_pos_of_pos_left _ (by omega)
  have hglt : Nat.gcd B A < 2 ^ 63 := lt_of_le_of_lt (Nat.gcd_le_left _ (by omega)) lb
  have hp' : B * A < 2 ^ 63 := by rw [eA, eB] at hp; rw [Nat.mul_comm]; exact_mod_cast hp
  have hl : Nat.lcm B A < 2 ^ 63 := lt_of_le_of_lt (Nat.div_le_self _ _) hp'
  refine ⟨BitVec.ofNat 64 (Nat.lcm B A), fun f hf => ?_, ?_, ?_, ?_, ?_⟩
  · rw [mathLcm, argToInt_of_intArg hy, argToInt_of_intArg hx, Run.bind_ok, Run.bind_ok, if_neg (by omega),
      gcdHelper_spec b a hb ha f (by omega), Run.bind_ok, hA, hB, toInt_ofNat_small hglt, eA, eB,
      if_pos (by rw [← eA, ← eB]; exact hp)]
    congr 3
    apply BitVec.eq_of_toInt_eq
    rw [toInt_ofNat_small hl, BitVec.toInt_ofInt]
    have : ((A : Int) * B).tdiv (Nat.gcd B A : Nat) = (Nat.lcm B A : Nat) := by
      rw [mul_comm, Int.tdiv_eq_ediv_of_nonneg (by positivity), ← Int.natCast_mul, ← Int.natCast_ediv]
      rfl
    rw [this]
    apply Int.bmod_eq_of_le <;> omega
  all_goals rw [toInt_ofNat_small hl]
  · have : 0 < Nat.lcm B A := Nat.lcm_pos (by omega) (by omega)
    omega
  · rw [eA]; exact Int.natCast_dvd_natCast.2 (Nat.dvd_lcm_right B A)
  · rw [eB]; exact Int.natCast_dvd_natCast.2 (Nat.dvd_lcm_left B A)
  · intro m hm h1 h2
    rw [eA] at h1; rw [eB] at h2
    have h1' := Int.natAbs_dvd_natAbs.2 h1
    have h2' := Int.natAbs_dvd_natAbs.2 h2
    simp only [Int.natAbs_natCast] at h1' h2'
    have := Nat.le_of_dvd (by omega) (Nat.lcm_dvd h2' h1')
    omega

example : mathLcm 40 (.int 12#64) (.int 18#64) = some (.ok (.int 36#64)) := by decide +kernel

/-- C63 is false when the product overflows although the lcm fits: `math.lcm(2^40, 2^40)` is 2^40 but the code computes `b*a`,
which is undefined behaviour. -/
theorem C63_lcm_overflow : Nat.lcm (2 ^ 40) (2 ^ 40) = 2 ^ 40 ∧
    ∀ f, 2 ^ 41 ≤ f → mathLcm f (.int (BitVec.ofNat 64 (2 ^ 40))) (.int (BitVec.ofNat 64 (2 ^ 40))) = some .ub := by
  refine ⟨Nat.lcm_self _, fun f hf => ?_⟩
  have e : (BitVec.ofNat 64 (2 ^ 40)).toInt = 2 ^ 40 := by decide
  rw [mathLcm, argToInt, Run.bind_ok, Run.bind_ok, if_neg (by rw [e]; decide),
    gcdHelper_spec _ _ (by rw [e]; decide) (by rw [e]; decide) f (by rw [e]; exact hf), Run.bind_ok, if_neg (by rw [e]; decide)]

/-! ## C64 -/

theorem fmag_le (b : BitVec 64) (h : fnan b = false) : fmag b ≤ 2 ^ 52 * 2 ^ 2046 := by
  have he : fexp b < 2 ^ 11 := Nat.mod_lt _ (by decide)
  have hm : fman b < 2 ^ 52 := Nat.mod_lt _ (by decide)
  unfold fmag
  split
  · exact le_trans (le_of_lt hm) (Nat.le_mul_of_pos_right _ (by positivity))
  · by_cases h47 : fexp b = 2047
    · have : fman b = 0 := by
        simpa [fnan, h47] using h
      rw [this, h47, Nat.add_zero]
    · calc (2 ^ 52 + fman b) * 2 ^ (fexp b - 1) ≤ 2 ^ 53 * 2 ^ 2045 :=
            Nat.mul_le_mul (by omega) (Nat.pow_le_pow_right (by decide) (by omega))
        _ = 2 ^ 52 * 2 ^ 2046 := by rw [← pow_add, ← pow_add]

theorem fval_range (b : BitVec 64) (h : fnan b = false) : fval negInf ≤ fval b ∧ fval b ≤ fval posInf := by
  have h1 : fval negInf = -((2 ^ 52 * 2 ^ 2046 : Nat) : Int) := by
    have a : fexp negInf = 2047 := by decide +kernel
    have c : fman negInf = 0 := by decide +kernel
    have d : fneg negInf = true := by decide +kernel
    have e : fmag negInf = 2 ^ 52 * 2 ^ 2046 := by rw [fmag, a, c, if_neg (by decide), Nat.add_zero]
    rw [fval, d, if_pos rfl, e]
  have h2 : fval posInf = ((2 ^ 52 * 2 ^ 2046 : Nat) : Int) := by
    have a : fexp posInf = 2047 := by decide +kernel
    have c : fman posInf = 0 := by decide +kernel
    have d : fneg posInf = false := by decide +kernel
    have e : fmag posInf = 2 ^ 52 * 2 ^ 2046 := by rw [fmag, a, c, if_neg (by decide), Nat.add_zero]
    rw [fval, d, if_neg (by decide), e]
  have := fmag_le b h
  rw [h1, h2, fval]
  generalize (2 ^ 52 * 2 ^ 2046 : Nat) = K at *
  split <;> constructor <;> omega

theorem natToFloatBits_lt (n : Nat) (h : n ≤ 2 ^ 63) : natToFloatBits n < 2046 * 2 ^ 52 := by
  unfold natToFloatBits
  split
  · positivity
  · rename_i h0
    have hl : n.log2 ≤ 63 := by
      have := (Nat.log2_lt h0).2 (show n < 2 ^ 64 by omega)
      omega
    have hhi : n < 2 ^ (n.log2 + 1) := Nat.lt_log2_self
    simp only
    split
    · rename_i h52
      have : n * 2 ^ (52 - n.log2) < 2 ^ 53 := by
        calc n * 2 ^ (52 - n.log2) < 2 ^ (n.log2 + 1) * 2 ^ (52 - n.log2) := Nat.mul_lt_mul_of_pos_right hhi (by positivity)
          _ = 2 ^ 53 := by rw [← pow_add]; congr 1; omega
      omega
    · rename_i h52
      have : n / 2 ^ (n.log2 - 52) < 2 ^ 53 := by
        rw [Nat.div_lt_iff_lt_mul (by positivity), ← pow_add]
        rwa [show 53 + (n.log2 - 52) = n.log2 + 1 by omega]
      split <;> omega

theorem fnan_intToFloat (i : BitVec 64) : fnan (intToFloat i) = false := by
  have hlt := natToFloatBits_lt i.toInt.natAbs (toInt_natAbs_lt i)
  have : fexp (intToFloat i) ≠ 2047 := by
    unfold intToFloat fexp
    split <;> rw [BitVec.toNat_ofNat] <;> omega
  simp [fnan, this]

theorem fnan_getNum {v : Val} (h : v.IsNumber) (hn : ¬ v.IsNaN) : fnan v.getNum = false := by
  rcases h with ⟨i, rfl⟩ | ⟨b, rfl⟩
  · exact fnan_intToFloat i
  · by_contra hb
    exact hn ⟨b, rfl, by simpa [Val.getNum] using hb⟩

theorem extremeLoop_spec (better : BitVec 64 → BitVec 64 → Bool) (vs : List Val) :
    (∀ v ∈ vs, v.IsNumber ∧ ¬ v.IsNaN) → ∀ m : Val,
    (∀ a b, fnan a = false → fnan b = false → (better a b = true ∨ better b a = true)) →
    (∀ a b c, better a b = true → better b c = true → better a c = true) → fnan m.getNum = false → better m.getNum m.getNum = true →
    ∃ r, extremeLoop better vs m = .ok r ∧ (r = m ∨ r ∈ vs) ∧ better m.getNum r.getNum = true ∧ (∀ v ∈ vs, better v.getNum r.getNum = true) ∧
      ((∃ v ∈ vs, better m.getNum v.getNum = true) → r ∈ vs) := by
  induction vs with
  | nil => intro _ m _ _ hm hmm; exact ⟨m, rfl, .inl rfl, hmm, by simp, by simp⟩
  | cons v vs ih =>
    intro hall m tot tr hm hmm
    obtain ⟨hv, hn⟩ := hall v (by simp)
    have hvn := fnan_getNum hv hn
    have hstep : extremeLoop better (v :: vs) m = extremeLoop better vs (if better m.getNum v.getNum then v else m) := by
      rcases hv with ⟨i, rfl⟩ | ⟨b, rfl⟩
      · rfl
      · have : feq b b = true := by rw [feq_iff]; exact ⟨hvn, hvn, rfl⟩
        rw [extremeLoop, if_neg (by simp [this])]; rfl
    have hvv : better v.getNum v.getNum = true := by rcases tot _ _ hvn hvn with h | h <;> exact h
    rw [hstep]
    by_cases hb : better m.getNum v.getNum = true
    · rw [if_pos hb]
      obtain ⟨r, h1, h2, h3, h4, h5⟩ := ih (fun x hx => hall x (by simp [hx])) v tot tr hvn hvv
      have hmem : r ∈ v :: vs := by rcases h2 with rfl | h2 <;> simp [*]
      refine ⟨r, h1, .inr hmem, tr _ _ _ hb h3, ?_, fun _ => hmem⟩
      intro x hx
      rcases List.mem_cons.1 hx with rfl | hx
      · exact h3
      · exact h4 x hx
    · rw [if_neg hb]
      obtain ⟨r, h1, h2, h3, h4, h5⟩ := ih (fun x hx => hall x (by simp [hx])) m tot tr hm hmm
      refine ⟨r, h1, ?_, h3, ?_, ?_⟩
      · rcases h2 with rfl | h2 <;> simp [*]
      · intro x hx
        rcases List.mem_cons.1 hx with rfl | hx
        · rcases tot _ _ hm hvn with h | h
          · exact absurd h hb
          · exact tr _ _ _ h h3
        · exact h4 x hx
      · rintro ⟨x, hx, hbx⟩
        rcases List.mem_cons.1 hx with rfl | hx
        · exact absurd hbx hb
        · exact List.mem_cons_of_mem _ (h5 ⟨x, hx, hbx⟩)

/-- C64, as doubles: `math.max` of one or more numbers, none of them NaN, is one of them, and as a double it is at least every
one of them; likewise `math.min`. -/
theorem C64_extreme_doubles (args : List Val) (hne : args ≠ []) (h : ∀ v ∈ args, v.IsNumber ∧ ¬ v.IsNaN) :
    (∃ m ∈ args, mathMax args = .ok m ∧ ∀ v ∈ args, fval v.getNum ≤ fval m.getNum) ∧
    (∃ m ∈ args, mathMin args = .ok m ∧ ∀ v ∈ args, fval m.getNum ≤ fval v.getNum) := by
  have hr : ∀ v ∈ args.reverse, v.IsNumber ∧ ¬ v.IsNaN := fun v hv => h v (by simpa using hv)
  obtain ⟨x, hx⟩ := List.exists_mem_of_ne_nil _ hne
  have hxn := fnan_getNum (h x hx).1 (h x hx).2
  constructor
  · obtain ⟨r, h1, h2, h3, h4, h5⟩ := extremeLoop_spec (fun m t => fle m t) args.reverse hr (.float negInf)
      (fun a b ha hb => by simp only [fle_iff, ha, hb, true_and]; omega)
      (fun a b c h1 h2 => by simp only [fle_iff] at *; exact ⟨h1.1, h2.2.1, by omega⟩)
      (by decide +kernel) (by decide +kernel)
    have hmem : r ∈ args := by
      have := h5 ⟨x, by simpa using hx, by rw [fle_iff]; exact ⟨by decide +kernel, hxn, (fval_range _ hxn).1⟩⟩
      simpa using this
    exact ⟨r, hmem, h1, fun v hv => by have := h4 v (by simpa using hv); rw [fle_iff] at this; exact this.2.2⟩
  · obtain ⟨r, h1, h2, h3, h4, h5⟩ := extremeLoop_spec (fun m t => fle t m) args.reverse hr (.float posInf)
      (fun a b ha hb => by simp only [fle_iff, ha, hb, true_and]; omega)
      (fun a b c h1 h2 => by simp only [fle_iff] at *; exact ⟨h2.1, h1.2.1, by omega⟩)
      (by decide +kernel) (by decide +kernel)
    have hmem : r ∈ args := by
      have := h5 ⟨x, by simpa using hx, by rw [fle_iff]; exact ⟨hxn, by decide +kernel, (fval_range _ hxn).2⟩⟩
      simpa using this
    exact ⟨r, hmem, h1, fun v hv => by have := h4 v (by simpa using hv); rw [fle_iff] at this; exact this.2.2⟩

theorem geTrue_of_fval (F : FloatOps) {m v : Val} (hm : m.IsNumber ∧ ¬ m.IsNaN) (hv : v.IsNumber ∧ ¬ v.IsNaN) (sm : m.SmallInt) (sv : v.SmallInt)
    (h : fval v.getNum ≤ fval m.getNum) : GeTrue F m v := by
  have n1 := fnan_getNum hm.1 hm.2
  have n2 := fnan_getNum hv.1 hv.2
  rcases hm with ⟨⟨i, rfl⟩ | ⟨x, rfl⟩, _⟩ <;> rcases hv with ⟨⟨j, rfl⟩ | ⟨y, rfl⟩, _⟩
  · rw [(C24_int_order F i j).2.2.2.1]
    simp only [Val.getNum, (intToFloat_exact i sm).2, (intToFloat_exact j sv).2] at h
    exact le_of_mul_le_mul_right h (by positivity)
  all_goals
    simp only [GeTrue, binOp, compOp, Val.isNum, Bool.and_self, if_true, OpRes.val.injEq, Val.bool.injEq]
    rw [fle_iff]
    exact ⟨n2, n1, h⟩

/-- C64, restricted to ints up to 2^53 in absolute value (floats are arbitrary): the result of `math.max` is an argument that is `>=` every
argument, in the sense of the language's operator, and the result of `math.min` is one that every argument is `>=` of.  Missing: larger ints,
for which it is false (next theorem). -/
theorem C64_extreme_partial (F : FloatOps) (args : List Val) (hne : args ≠ []) (h : ∀ v ∈ args, v.IsNumber ∧ ¬ v.IsNaN)
    (hs : ∀ v ∈ args, v.SmallInt) :
    (∃ m ∈ args, mathMax args = .ok m ∧ ∀ v ∈ args, GeTrue F m v) ∧
    (∃ m ∈ args, mathMin args = .ok m ∧ ∀ v ∈ args, GeTrue F v m) := by
  obtain ⟨⟨m, hm, h1, h2⟩, ⟨n, hn, h3, h4⟩⟩ := C64_extreme_doubles args hne h
  exact ⟨⟨m, hm, h1, fun v hv => geTrue_of_fval F (h m hm) (h v hv) (hs m hm) (hs v hv) (h2 v hv)⟩,
    ⟨n, hn, h3, fun v hv => geTrue_of_fval F (h v hv) (h n hn) (hs v hv) (hs n hn) (h4 v hv)⟩⟩

example : mathMax [.int 3#64, .float 0x4000000000000000#64, .int 7#64, .int (-5#64)] = .ok (.int 7#64) ∧
    mathMin [.int 3#64, .float 0x4000000000000000#64, .int 7#64] = .ok (.float 0x4000000000000000#64) := by decide +kernel

/-- C64 is false for large ints: `math.max(2^53, 2^53 + 1)` is 2^53, which is not `>=` 2^53 + 1. -/
theorem C64_max_wrong (F : FloatOps) :
    mathMax [.int 9007199254740992#64, .int 9007199254740993#64] = .ok (.int 9007199254740992#64) ∧
    ¬ GeTrue F (.int 9007199254740992#64) (.int 9007199254740993#64) := by
  refine ⟨by decide +kernel, ?_⟩
  rw [(C24_int_order F _ _).2.2.2.1]; decide

/-- C64: the result is NaN if all arguments are numbers and one of them is NaN; without arguments it is minus (plus) infinity. -/
theorem C64_nan (args : List Val) (h : ∀ v ∈ args, v.IsNumber) (hn : ∃ v ∈ args, v.IsNaN) :
    (∃ m, mathMax args = .ok m ∧ m.IsNaN) ∧ (∃ m, mathMin args = .ok m ∧ m.IsNaN) := by
  have key : ∀ better vs, (∀ v ∈ vs, Val.IsNumber v) → (∃ v ∈ vs, Val.IsNaN v) → ∀ m, extremeLoop better vs m = .ok (.float someNan) := by
    intro better vs
    induction vs with
    | nil => intro _ hn; simp at hn
    | cons v vs ih =>
      intro hall hex m
      by_cases hvn : v.IsNaN
      · obtain ⟨b, rfl, hb⟩ := hvn
        have : feq b b = false := by simp [feq, hb]
        simp [extremeLoop, this]
      · have hex' : ∃ v ∈ vs, Val.IsNaN v := by
          obtain ⟨w, hw, hwn⟩ := hex
          rcases List.mem_cons.1 hw with rfl | hw
          · exact absurd hwn hvn
          · exact ⟨w, hw, hwn⟩
        rcases hall v (by simp) with ⟨i, rfl⟩ | ⟨b, rfl⟩
        · exact ih (fun x hx => hall x (by simp [hx])) hex' _
        · simp only [extremeLoop]
          split
          · rfl
          · exact ih (fun x hx => hall x (by simp [hx])) hex' _
  have nn : Val.IsNaN (.float someNan) := ⟨_, rfl, by decide +kernel⟩
  exact ⟨⟨_, key _ _ (fun v hv => h v (by simpa using hv)) (by simpa using hn) _, nn⟩,
    ⟨_, key _ _ (fun v hv => h v (by simpa using hv)) (by simpa using hn) _, nn⟩⟩

theorem C64_empty : mathMax [] = .ok (.float negInf) ∧ mathMin [] = .ok (.float posInf) := ⟨rfl, rfl⟩

/-! ## C72 -/

/-- C72, restricted to non-negative ints: `math.isprime(n)` is whether `n` is prime.  Missing: negative ints, for which it is false (next
theorem). -/
theorem C72_isprime_partial (sq : Nat → Nat) (h : SqrtOK sq) (x : Val) (n : BitVec 64) (hx : x.IntArg n) (hn : 0 ≤ n.toInt) :
    ∃ r, mathIsprime sq x = .ok (.bool r) ∧ (r = true ↔ Nat.Prime n.toInt.toNat) := by
  refine ⟨isPrimeC sq n.toNat, ?_, ?_⟩
  · rw [mathIsprime, argToInt_of_intArg hx]; rfl
  · rw [C17_is_prime_correct sq h]
    have : n.toInt.toNat = n.toNat := by
      rw [BitVec.toInt_eq_toNat_cond] at hn ⊢
      split at hn <;> omega
    rw [this]

/-- C72 is false for negative ints: they are converted to `size_t`, so `math.isprime(-59)` is `true` (2^64 - 59 is prime). -/
theorem C72_negative_prime (sq : Nat → Nat) (h : SqrtOK sq) : mathIsprime sq (.int (BitVec.ofInt 64 (-59))) = .ok (.bool true) := by
  have : isPrimeC sq 18446744073709551557 = true := (C17_is_prime_correct sq h _).2 prime_two64_sub_59
  rw [mathIsprime, argToInt, Out.bind_ok, show (BitVec.ofInt 64 (-59)).toNat = 18446744073709551557 by decide, this]

/-! ## C73 -/

/-- C73: `math.abs` of an int is its absolute value, except for the smallest int, where the negation is undefined behaviour. -/
theorem C73_abs_int (i : BitVec 64) :
    (i.toInt ≠ -2 ^ 63 → ∃ r, mathAbs (.int i) = .ok (.int r) ∧ r.toInt = |i.toInt|) ∧
    (i.toInt = -2 ^ 63 → mathAbs (.int i) = .ub) := by
  constructor
  · intro h
    rw [mathAbs]
    have h2 : -2 ^ 63 ≤ i.toInt := BitVec.le_toInt (x := i)
    by_cases hn : i.toInt < 0
    · refine ⟨-i, by rw [if_pos hn, if_neg h], ?_⟩
      rw [BitVec.toInt_neg, abs_of_neg hn]
      have : i.toInt < 2 ^ 63 := BitVec.toInt_lt (x := i)
      apply Int.bmod_eq_of_le <;> omega
    · exact ⟨i, by simp [hn], by rw [abs_of_nonneg (by omega)]⟩
  · intro h
    rw [mathAbs, if_pos (by omega), if_pos h]

/-- C73: `math.abs` of a float that is not NaN has the absolute value. -/
theorem C73_abs_float (b : BitVec 64) (hb : fnan b = false) :
    ∃ r, mathAbs (.float b) = .ok (.float r) ∧ fnan r = false ∧ fval r = |fval b| := by
  have h0 : fval 0 = 0 := by decide +kernel
  by_cases hlt : flt b 0 = true
  · have hv : fval b < 0 := by rw [flt_iff, h0] at hlt; exact hlt.2.2
    refine ⟨floatNeg b, by rw [mathAbs, if_pos hlt], ?_⟩
    have hneg : fneg b = true := by
      by_contra hc
      rw [fval, if_neg hc] at hv; omega
    have h63 : b.toNat / 2 ^ 63 = 1 := by simpa [fneg] using hneg
    have hlt64 := b.isLt
    have hnat : (floatNeg b).toNat = b.toNat - 2 ^ 63 := by
      have : floatNeg b = b - BitVec.ofNat 64 (2 ^ 63) := by
        unfold floatNeg
        have hm : b.msb = true := by rw [BitVec.msb_eq_decide]; simp; omega
        revert hm
        generalize b = c
        intro hm
        apply BitVec.eq_of_toNat_eq
        rw [BitVec.toNat_xor, BitVec.toNat_sub]
        have hc := c.isLt
        have hge : 2 ^ 63 ≤ c.toNat := by rw [BitVec.msb_eq_decide] at hm; simpa using hm
        have e1 : (1#64 <<< 63).toNat = 2 ^ 63 := by decide
        rw [e1, BitVec.toNat_ofNat]
        have e2 : c.toNat = 2 ^ 63 * 1 + (c.toNat - 2 ^ 63) := by omega
        have e3 : c.toNat ^^^ 2 ^ 63 = c.toNat - 2 ^ 63 := by
          apply Nat.eq_of_testBit_eq
          intro k
          rw [Nat.testBit_xor, Nat.testBit_two_pow]
          conv_lhs => rw [e2]
          rw [Nat.testBit_two_pow_mul_add _ (by omega)]
          by_cases hk : k < 63
          · have : ¬ (63 = k) := by omega
            simp [hk, this]
          · by_cases hk2 : k = 63
            · subst hk2
              have h2 : (c.toNat - 2 ^ 63).testBit 63 = false := Nat.testBit_lt_two_pow (by omega)
              rw [h2]; simp
            · have h1 : ¬ 63 = k := by omega
              have h2 : (c.toNat - 2 ^ 63).testBit k = false := by
                apply Nat.testBit_lt_two_pow
                exact lt_of_lt_of_le (show c.toNat - 2 ^ 63 < 2 ^ 63 by omega) (Nat.pow_le_pow_right (by decide) (by omega))
              have h3 : Nat.testBit 1 (k - 63) = false := by
                apply Nat.testBit_lt_two_pow
                exact Nat.one_lt_two_pow (by omega)
              rw [if_neg hk, h3, h2]; simp [h1]
        rw [e3]; omega
      rw [this, BitVec.toNat_sub, BitVec.toNat_ofNat]; omega
    have e1 : fexp (floatNeg b) = fexp b := by rw [fexp, fexp, hnat]; omega
    have e2 : fman (floatNeg b) = fman b := by rw [fman, fman, hnat]; omega
    have e3 : fneg (floatNeg b) = false := by
      rw [fneg, hnat]
      have : (b.toNat - 2 ^ 63) / 2 ^ 63 = 0 := by omega
      rw [this]; rfl
    refine ⟨by rw [fnan, e1, e2]; exact hb, ?_⟩
    rw [abs_of_neg hv, fval, e3, fval, hneg, fmag, e1, e2]
    simp [fmag]
  · refine ⟨b, by rw [mathAbs, if_neg hlt], hb, ?_⟩
    have hv : ¬ fval b < 0 := by
      intro hc; apply hlt; rw [flt_iff, h0]; exact ⟨hb, by decide +kernel, hc⟩
    rw [abs_of_nonneg (by omega)]

/-- C73: `float.toint` truncates towards zero when the result fits, and is undefined behaviour otherwise (NaN, infinities, large values). -/
theorem C73_toint (b : BitVec 64) :
    (∀ i : BitVec 64, floatToint b = .ok (.int i) ↔ fnan b = false ∧ |i.toInt| * 2 ^ 1074 ≤ |fval b| ∧ |fval b| < (|i.toInt| + 1) * 2 ^ 1074 ∧
      0 ≤ i.toInt * fval b) ∧
    ((¬ ∃ i : BitVec 64, fnan b = false ∧ |i.toInt| * 2 ^ 1074 ≤ |fval b| ∧ |fval b| < (|i.toInt| + 1) * 2 ^ 1074 ∧ 0 ≤ i.toInt * fval b) →
      floatToint b = .ub) := by
  have trunc : ∀ (t x : Int), (|t| * 2 ^ 1074 ≤ |x| ∧ |x| < (|t| + 1) * 2 ^ 1074 ∧ 0 ≤ t * x) ↔ t = x.tdiv (2 ^ 1074) := by
    intro t x
    have hK : (0 : Int) < 2 ^ 1074 := by positivity
    generalize (2 ^ 1074 : Int) = K at hK
    rcases le_total 0 x with hx | hx
    · rw [abs_of_nonneg hx, Int.tdiv_eq_ediv_of_nonneg hx]
      constructor
      · rintro ⟨h1, h2, h3⟩
        have ht : 0 ≤ t := by
          by_contra hc
          have h4 : x ≤ 0 := by nlinarith
          have h5 : x = 0 := le_antisymm h4 hx
          subst h5
          have : 0 < |t| := abs_pos.2 (by omega)
          nlinarith
        rw [abs_of_nonneg ht] at h1 h2
        symm
        rw [Int.ediv_eq_iff_of_pos hK]
        constructor <;> linarith
      · rintro rfl
        have h0 : 0 ≤ x / K := Int.ediv_nonneg hx hK.le
        rw [abs_of_nonneg h0]
        refine ⟨Int.ediv_mul_le _ hK.ne', Int.lt_ediv_add_one_mul_self _ hK, mul_nonneg h0 hx⟩
    · obtain ⟨y, rfl⟩ : ∃ y, x = -y := ⟨-x, by ring⟩
      have hy : 0 ≤ y := by omega
      rw [abs_neg, abs_of_nonneg hy, Int.neg_tdiv, Int.tdiv_eq_ediv_of_nonneg hy]
      constructor
      · rintro ⟨h1, h2, h3⟩
        have ht : t ≤ 0 := by
          by_contra hc
          have h4 : y ≤ 0 := by nlinarith
          have h5 : y = 0 := le_antisymm h4 hy
          subst h5
          have : 0 < |t| := abs_pos.2 (by omega)
          nlinarith
        rw [abs_of_nonpos ht] at h1 h2
        have : y / K = -t := by
          rw [Int.ediv_eq_iff_of_pos hK]
          constructor <;> linarith
        omega
      · rintro rfl
        have h0 : 0 ≤ y / K := Int.ediv_nonneg hy hK.le
        rw [abs_neg, abs_of_nonneg h0]
        refine ⟨Int.ediv_mul_le _ hK.ne', Int.lt_ediv_add_one_mul_self _ hK, by nlinarith [mul_nonneg h0 hy]⟩
  have rng : ∀ i : BitVec 64, -2 ^ 63 ≤ i.toInt ∧ i.toInt < 2 ^ 63 := fun i => ⟨BitVec.le_toInt (x := i), BitVec.toInt_lt (x := i)⟩
  constructor
  · intro i
    rw [trunc, floatToint, floatToInt]
    by_cases hb : fnan b = true
    · simp [hb]
    · have hb' : fnan b = false := by simpa using hb
      rw [hb']
      simp only [Bool.false_eq_true, if_false, true_and]
      generalize (fval b).tdiv (2 ^ 1074) = t
      split
      · rename_i j hj
        split at hj
        · rename_i hr
          simp only [Option.some.injEq] at hj
          subst hj
          simp only [Out.ok.injEq, Val.int.injEq]
          rw [← BitVec.toInt_inj, BitVec.toInt_ofInt, Int.bmod_eq_of_le (by omega) (by omega)]
          exact eq_comm
        · simp at hj
      · rename_i hj
        split at hj
        · simp at hj
        · rename_i hr
          constructor
          · simp
          · rintro rfl; exact absurd (rng i) hr
  · intro h
    rw [floatToint, floatToInt]
    by_cases hb : fnan b = true
    · simp [hb]
    · have hb' : fnan b = false := by simpa using hb
      rw [hb']
      simp only [Bool.false_eq_true, if_false]
      rw [if_neg]
      intro hr
      apply h
      refine ⟨BitVec.ofInt 64 ((fval b).tdiv (2 ^ 1074)), hb', ?_⟩
      rw [trunc, BitVec.toInt_ofInt, Int.bmod_eq_of_le (by omega) (by omega)]

example : floatToint 0xC00E000000000000#64 = .ok (.int (-3#64)) ∧ floatToint posInf = .ub := by decide +kernel  -- -3.75

/-- C73: an int of at most 2^53 in absolute value survives `tofloat().toint()` … -/
theorem C73_roundtrip (i : BitVec 64) (h : i.toInt.natAbs ≤ 2 ^ 53) : floatToint (intToFloat i) = .ok (.int i) := by
  obtain ⟨h1, h2⟩ := intToFloat_exact i h
  rw [floatToint, floatToInt, h1, h2]
  simp only [Bool.false_eq_true, if_false]
  rw [Int.mul_tdiv_cancel _ (by positivity), if_pos (by omega)]
  simp

/-- … but 2^53 + 1 changes and the largest int makes the conversion undefined behaviour. -/
theorem C73_roundtrip_lossy : floatToint (intToFloat 9007199254740993#64) = .ok (.int 9007199254740992#64) ∧
    floatToint (intToFloat 0x7FFFFFFFFFFFFFFF#64) = .ub := by decide +kernel

/-- the theorems on numbers: -5.0, 3 and 7; a NaN among them; 7919; -3.0 -/
example := C64_extreme_doubles [.float 0xC014000000000000#64, .int 3, .int 7] (by simp) (by
  intro v hv; simp at hv; rcases hv with rfl | rfl | rfl
  · exact ⟨.inr ⟨_, rfl⟩, by rintro ⟨x, h, h2⟩; cases h; exact absurd h2 (by decide +kernel)⟩
  · exact ⟨.inl ⟨_, rfl⟩, by rintro ⟨x, h, -⟩; cases h⟩
  · exact ⟨.inl ⟨_, rfl⟩, by rintro ⟨x, h, -⟩; cases h⟩)
example := C64_nan [.int 3, .float 0x7FF8000000000000#64] (by simp [Val.IsNumber]) ⟨.float 0x7FF8000000000000#64, by simp, _, rfl, by decide +kernel⟩
example := C72_isprime_partial Nat.sqrt ⟨fun _ => Nat.le_refl _, fun _ h => Nat.sqrt_lt_self (by omega)⟩ (.int 7919) 7919 (.inl rfl) (by decide)
example := C73_abs_float 0xC008000000000000#64 (by decide +kernel)
example := (C73_abs_int (BitVec.ofInt 64 (-5))).1 (by decide +kernel)

end Yasl
