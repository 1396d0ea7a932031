import Verif.Ext
import Verif.Format
/-
Multiplication by powers of two commutes with floating-point arithmetic in which neither overflow nor underflow occurs.
-/
namespace Verif
open Scalar

/-- Rounding does not depend on the exponent, and every exponent is in the range. -/
structure Fmt.Scales (F : Fmt) : Prop where
  rnd_two : ∀ r, F.rnd (2 * r) = 2 * F.rnd r
  fits : ∀ r, F.fits r

/-- `2^k x`. -/
noncomputable def X.sc {F : Fmt} (k : ℤ) : X F → X F
  | .fin r => .fin (2 ^ k * r)
  | a => a

namespace Fmt.Scales
variable {F : Fmt} (hF : F.Scales)
include hF

theorem rnd_zpow (k : ℤ) (r : ℝ) : F.rnd (2 ^ k * r) = 2 ^ k * F.rnd r := by
  have hn : ∀ (n : ℕ) (r : ℝ), F.rnd (2 ^ n * r) = 2 ^ n * F.rnd r := by
    intro n
    induction n with
    | zero => intro r; simp
    | succ n ih => intro r; rw [pow_succ, mul_assoc, ih, hF.rnd_two, mul_assoc]
  rcases Int.eq_nat_or_neg k with ⟨n, rfl | rfl⟩
  · simpa using hn n r
  · have h := hn n (2 ^ (-(n : ℤ)) * r)
    have e : (2 : ℝ) ^ n * (2 ^ (-(n : ℤ)) * r) = r := by rw [zpow_neg, zpow_natCast]; field_simp
    rw [e] at h
    rw [h, zpow_neg, zpow_natCast]; field_simp

theorem round_eq (r : ℝ) : (X.round r : X F) = .fin (F.rnd r) := by rw [X.round, if_pos (hF.fits _)]

theorem round_sc (k : ℤ) (r : ℝ) : (X.round (2 ^ k * r) : X F) = (X.round r).sc k := by
  rw [hF.round_eq, hF.round_eq, hF.rnd_zpow]; rfl

theorem rnd_zero : F.rnd 0 = 0 := by
  have := hF.rnd_two 0
  rw [mul_zero] at this
  linarith

theorem zero : (ofNat 0 : X F) = X.fin 0 := by rw [X.ofNat_eq, Nat.cast_zero, hF.round_eq, hF.rnd_zero]

theorem sc_ofNat_zero (k : ℤ) : (ofNat 0 : X F).sc k = ofNat 0 := by rw [hF.zero]; simp [X.sc]

omit hF in
theorem sc_zero (a : X F) : a.sc 0 = a := by cases a <;> simp [X.sc]

theorem add (k : ℤ) (a b : X F) : a.sc k + b.sc k = (a + b).sc k := by
  show X.add _ _ = (X.add _ _).sc k
  cases a <;> cases b <;> first | rfl | skip
  rename_i a b
  show X.round (2 ^ k * a + 2 ^ k * b) = (X.round (a + b)).sc k
  rw [← hF.round_sc]; congr 1; ring

theorem sub (k : ℤ) (a b : X F) : a.sc k - b.sc k = (a - b).sc k := by
  show X.sub _ _ = (X.sub _ _).sc k
  cases a <;> cases b <;> first | rfl | skip
  rename_i a b
  show X.round (2 ^ k * a - 2 ^ k * b) = (X.round (a - b)).sc k
  rw [← hF.round_sc]; congr 1; ring

omit hF in
theorem signedInf_sc (j k : ℤ) (r : ℝ) : (X.signedInf (2 ^ k * r) : X F) = (X.signedInf r).sc j := by
  have h2 : (0 : ℝ) < (2 : ℝ) ^ k := zpow_pos (by norm_num) k
  unfold X.signedInf
  by_cases h : 0 < r
  · rw [if_pos h, if_pos (by positivity)]; rfl
  · rw [if_neg h, if_neg (by nlinarith)]
    by_cases h' : r < 0
    · rw [if_pos h', if_pos (by nlinarith)]; rfl
    · rw [if_neg h', if_neg (by nlinarith)]; rfl

theorem mul (j k : ℤ) (a b : X F) : a.sc j * b.sc k = (a * b).sc (j + k) := by
  show X.mul _ _ = (X.mul _ _).sc _
  cases a <;> cases b <;> first | rfl | skip
  · rename_i a b
    show X.round (2 ^ j * a * (2 ^ k * b)) = (X.round (a * b)).sc _
    rw [← hF.round_sc, zpow_add₀ (by norm_num)]; congr 1; ring
  · exact signedInf_sc _ _ _
  · rename_i a
    show X.signedInf (-(2 ^ j * a)) = _
    rw [← mul_neg]; exact signedInf_sc _ _ _
  · exact signedInf_sc _ _ _
  · rename_i a
    show X.signedInf (-(2 ^ k * a)) = _
    rw [← mul_neg]; exact signedInf_sc _ _ _

theorem div (j k : ℤ) (a b : X F) : a.sc j / b.sc k = (a / b).sc (j - k) := by
  have h2 : (0 : ℝ) < (2 : ℝ) ^ k := zpow_pos (by norm_num) k
  show X.div _ _ = (X.div _ _).sc _
  cases a <;> cases b <;> first | rfl | skip
  · rename_i a b
    show (if 2 ^ k * b = 0 then X.signedInf (2 ^ j * a) else X.round (2 ^ j * a / (2 ^ k * b))) = (if b = 0 then _ else _ : X F).sc _
    by_cases hb : b = 0
    · rw [if_pos hb, if_pos (by rw [hb, mul_zero])]; exact signedInf_sc _ _ _
    · rw [if_neg hb, if_neg (mul_ne_zero h2.ne' hb), ← hF.round_sc, zpow_sub₀ (by norm_num)]
      congr 1; field_simp
  · show (X.fin 0 : X F) = .fin (_ * 0)
    rw [mul_zero]
  · show (X.fin 0 : X F) = .fin (_ * 0)
    rw [mul_zero]
  · rename_i b
    show (if 2 ^ k * b < 0 then X.ninf else X.pinf) = (if b < 0 then X.ninf else X.pinf : X F).sc _
    by_cases hb : b < 0
    · rw [if_pos hb, if_pos (by nlinarith)]; rfl
    · rw [if_neg hb, if_neg (by nlinarith)]; rfl
  · rename_i b
    show (if 2 ^ k * b < 0 then X.pinf else X.ninf) = (if b < 0 then X.pinf else X.ninf : X F).sc _
    by_cases hb : b < 0
    · rw [if_pos hb, if_pos (by nlinarith)]; rfl
    · rw [if_neg hb, if_neg (by nlinarith)]; rfl

/-- A factor that is not scaled. -/
theorem mul_left (k : ℤ) (a b : X F) : a.sc k * b = (a * b).sc k := by
  have := hF.mul k 0 a b
  rwa [sc_zero, add_zero] at this

theorem mul_right (k : ℤ) (a b : X F) : a * b.sc k = (a * b).sc k := by
  have := hF.mul 0 k a b
  rwa [sc_zero, zero_add] at this

theorem div_left (k : ℤ) (a b : X F) : a.sc k / b = (a / b).sc k := by
  have := hF.div k 0 a b
  rwa [sc_zero, sub_zero] at this

theorem sqrt (k : ℤ) (a : X F) : Scalar.sqrt (a.sc (k + k)) = (Scalar.sqrt a).sc k := by
  have h2 : (0 : ℝ) < (2 : ℝ) ^ k := zpow_pos (by norm_num) k
  cases a <;> first | rfl | skip
  rename_i a
  show (if 2 ^ (k + k) * a < 0 then X.nan else X.round (Real.sqrt (2 ^ (k + k) * a))) = (if a < 0 then _ else _ : X F).sc k
  have e : (2 : ℝ) ^ (k + k) = (2 ^ k) ^ 2 := by rw [zpow_add₀ (by norm_num), sq]
  rw [e]
  by_cases ha : a < 0
  · rw [if_pos ha, if_pos (by nlinarith [pow_pos h2 2])]; rfl
  · rw [if_neg ha, if_neg (by nlinarith [pow_pos h2 2, mul_nonneg (pow_pos h2 2).le (not_lt.1 ha)]), ← hF.round_sc,
      Real.sqrt_mul (by positivity), Real.sqrt_sq h2.le]

omit hF in
theorem lt (k : ℤ) (a b : X F) : Scalar.lt (a.sc k) (b.sc k) = Scalar.lt a b := by
  have h2 : (0 : ℝ) < (2 : ℝ) ^ k := zpow_pos (by norm_num) k
  cases a <;> cases b <;> first | rfl | skip
  rename_i a b
  show decide (2 ^ k * a < 2 ^ k * b) = decide (a < b)
  exact decide_eq_decide.2 ⟨fun h => lt_of_mul_lt_mul_left h h2.le, fun h => mul_lt_mul_of_pos_left h h2⟩

omit hF in
theorem beq (k : ℤ) (a b : X F) : Scalar.beq (a.sc k) (b.sc k) = Scalar.beq a b := by
  have h2 : (0 : ℝ) < (2 : ℝ) ^ k := zpow_pos (by norm_num) k
  cases a <;> cases b <;> first | rfl | skip
  rename_i a b
  show decide (2 ^ k * a = 2 ^ k * b) = decide (a = b)
  exact decide_eq_decide.2 ⟨fun h => mul_left_cancel₀ h2.ne' h, fun h => by rw [h]⟩

theorem beq_zero (k : ℤ) (a : X F) : Scalar.beq (a.sc k) (ofNat 0) = Scalar.beq a (ofNat 0) := by
  rw [← hF.sc_ofNat_zero k, beq, hF.sc_ofNat_zero]

theorem max_zero (k : ℤ) (a : X F) : Scalar.max (ofNat 0) (a.sc k) = (Scalar.max (ofNat 0) a).sc k := by
  unfold Scalar.max
  have h := lt k (ofNat 0 : X F) a
  rw [hF.sc_ofNat_zero] at h
  rw [h]
  split
  · rfl
  · rw [hF.sc_ofNat_zero]

theorem cond (k : ℤ) (c : Prop) [Decidable c] (a : X F) : (if c then a.sc k else ofNat 0) = (if c then a else ofNat 0).sc k := by
  split
  · rfl
  · rw [hF.sc_ofNat_zero]

theorem cond' (k : ℤ) (c : Prop) [Decidable c] (a : X F) : (if c then ofNat 0 else a.sc k) = (if c then ofNat 0 else a).sc k := by
  split
  · rw [hF.sc_ofNat_zero]
  · rfl

end Fmt.Scales

/-- `p` digits and exponents without bounds, rounding to nearest, ties to even. -/
noncomputable def Fmt.unbounded (p : Nat) : Fmt where
  rnd r := nearestEven (r / 2 ^ (Int.log 2 |r| + 1 - p)) * 2 ^ (Int.log 2 |r| + 1 - p)
  fits _ := True
  eps := 2 ^ (1 - (p : Int))

theorem nearestEven_zero : nearestEven 0 = 0 := by simp [nearestEven]

theorem unbounded_scales (p : Nat) : (Fmt.unbounded p).Scales where
  rnd_two r := by
    rcases eq_or_ne r 0 with rfl | h
    · simp [Fmt.unbounded, nearestEven_zero]
    · show (nearestEven (2 * r / 2 ^ (Int.log 2 |2 * r| + 1 - p)) : ℝ) * 2 ^ (Int.log 2 |2 * r| + 1 - p)
        = 2 * (nearestEven (r / 2 ^ (Int.log 2 |r| + 1 - p)) * 2 ^ (Int.log 2 |r| + 1 - p))
      have hl : Int.log 2 |2 * r| = Int.log 2 |r| + 1 := by
        have hr : 0 < |r| := abs_pos.2 h
        rw [abs_mul, abs_two]
        have h1 : (2 : ℝ) ^ Int.log 2 |r| ≤ |r| := by exact_mod_cast Int.zpow_log_le_self (by norm_num) hr
        have h2 : |r| < (2 : ℝ) ^ (Int.log 2 |r| + 1) := by exact_mod_cast Int.lt_zpow_succ_log_self (b := 2) (by norm_num) |r|
        have h2' : (2 : ℝ) ^ (Int.log 2 |r| + 1) = 2 * 2 ^ Int.log 2 |r| := by rw [zpow_add_one₀ (by norm_num)]; ring
        have h3 : (2 : ℝ) ^ (Int.log 2 |r| + 1) ≤ 2 * |r| := by rw [h2']; linarith
        have h4 : 2 * |r| < (2 : ℝ) ^ (Int.log 2 |r| + 1 + 1) := by
          rw [zpow_add_one₀ (by norm_num)]; linarith
        apply le_antisymm
        · have := Int.lt_zpow_iff_log_lt (b := 2) (by norm_num) (x := Int.log 2 |r| + 1 + 1) (r := 2 * |r|) (by positivity)
          have := this.1 (by exact_mod_cast h4)
          omega
        · have := Int.zpow_le_iff_le_log (b := 2) (by norm_num) (x := Int.log 2 |r| + 1) (r := 2 * |r|) (by positivity)
          exact this.1 (by exact_mod_cast h3)
      have e : Int.log 2 |2 * r| + 1 - (p : Int) = (Int.log 2 |r| + 1 - p) + 1 := by rw [hl]; ring
      rw [e, zpow_add_one₀ (by norm_num)]
      have : 2 * r / (2 ^ (Int.log 2 |r| + 1 - (p : Int)) * 2) = r / 2 ^ (Int.log 2 |r| + 1 - (p : Int)) := by field_simp
      rw [this]; ring
  fits _ := trivial

/-- Exact arithmetic. -/
theorem exact_scales (ε : ℝ) : (Fmt.exact ε).Scales := ⟨fun _ => rfl, fun _ => trivial⟩

end Verif
