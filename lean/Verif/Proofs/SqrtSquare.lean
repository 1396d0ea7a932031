import Verif.Proofs.Nearest
import Mathlib.Tactic.Linarith
import Mathlib.Tactic.Positivity
import Mathlib.Tactic.FieldSimp
import Mathlib.Tactic.Ring
import Mathlib.Tactic.LinearCombination
/-
Rounded to nearest, the square root of the square of a number is the number.
-/
namespace Verif

variable {p : Nat} {emin : Int}

theorem nearestEven_of_near {y : ℝ} {m : Int} (h : |y - m| < 1 / 2) : nearestEven y = m := by
  have h1 := nearestEven_best y m
  have h2 : |((nearestEven y - m : Int) : ℝ)| < 1 := by
    have e : ((nearestEven y - m : Int) : ℝ) = ((nearestEven y : ℝ) - y) + (y - m) := by push_cast; ring
    rw [e]
    rw [abs_sub_comm (m : ℝ) y] at h1
    exact lt_of_le_of_lt (abs_add_le _ _) (by linarith)
  have h3 : |nearestEven y - m| < 1 := by exact_mod_cast h2
  have := Int.abs_lt_one_iff.1 h3
  omega

/-- Relative error in the normal range. -/
theorem roundNearest_relative {r : ℝ} (h : (2 : ℝ) ^ (emin + p - 1) ≤ r) : |roundNearest p emin r - r| ≤ 2 ^ (-(p : Int)) * r := by
  have hr : 0 < r := lt_of_lt_of_le (by positivity) h
  refine (roundNearest_err r).trans ?_
  have hlog : emin + p - 1 ≤ Int.log 2 r := by
    rw [← Int.zpow_le_iff_le_log (by norm_num) hr]; exact_mod_cast h
  have e : lastDigit p emin r = Int.log 2 r + 1 - p := by
    unfold lastDigit; rw [abs_of_pos hr, max_eq_left (by omega)]
  rw [e, show Int.log 2 r + 1 - (p : Int) = -(p : Int) + Int.log 2 r + 1 by ring, zpow_add₀ (by norm_num), zpow_add₀ (by norm_num), zpow_one,
    mul_div_assoc, div_self (by norm_num), mul_one]
  refine mul_le_mul_of_nonneg_left ?_ (by positivity)
  have := Int.zpow_log_le_self (b := 2) (by norm_num) hr
  exact_mod_cast this

/-- sqrt(x * x) = x with both operations rounded to nearest, outside the underflow range. -/
theorem roundNearest_sqrt_sq (hp : 1 ≤ p) {x : ℝ} (hx : IsRep p emin x) (h0 : 0 < x) (h1 : (2 : ℝ) ^ (emin + p - 1) ≤ x)
    (h2 : (2 : ℝ) ^ (emin + p - 1) ≤ x * x) : roundNearest p emin (Real.sqrt (roundNearest p emin (x * x))) = x := by
  have hE1 : (2 : ℝ) ^ Int.log 2 x ≤ x := by
    have := Int.zpow_log_le_self (b := 2) (by norm_num) h0; exact_mod_cast this
  have hE2 : x < (2 : ℝ) ^ (Int.log 2 x + 1) := by
    have := Int.lt_zpow_succ_log_self (b := 2) (by norm_num) x; exact_mod_cast this
  have hlog : emin + p - 1 ≤ Int.log 2 x := by
    rw [← Int.zpow_le_iff_le_log (by norm_num) h0]; exact_mod_cast h1
  obtain ⟨m, hm⟩ := hx.lastDigit_mul
  have hl : lastDigit p emin x = Int.log 2 x + 1 - p := by
    unfold lastDigit; rw [abs_of_pos h0, max_eq_left (by omega)]
  rw [hl] at hm
  generalize Int.log 2 x = E at hE1 hE2 hlog hm
  set T : ℝ := 2 ^ E with hT
  set u : ℝ := 2 ^ (-(p : Int)) with hu
  have hT0 : 0 < T := by positivity
  have hu0 : 0 < u := by positivity
  have hu1 : u ≤ 1 / 2 := by
    rw [hu, show (1 / 2 : ℝ) = 2 ^ (-1 : Int) by norm_num]
    exact zpow_le_zpow_right₀ (by norm_num) (by omega)
  have hpu : (2 : ℝ) ^ p * u = 1 := by
    rw [hu, zpow_neg, zpow_natCast, mul_inv_cancel₀ (by positivity)]
  have hS : (2 : ℝ) ^ (E + 1 - (p : Int)) = 2 * T * u := by
    rw [hT, hu, show E + 1 - (p : Int) = 1 + E + -(p : Int) by ring, zpow_add₀ (by norm_num), zpow_add₀ (by norm_num), zpow_one]
  rw [zpow_add₀ (by norm_num), zpow_one, ← hT] at hE2
  rw [hS] at hm
  have hS0 : 0 < 2 * T * u := by positivity
  -- m ≤ 2^p - 1
  have hm1 : m + 1 ≤ 2 ^ p := by
    have : (m : ℝ) < 2 ^ p := by
      by_contra hc
      have : (2 : ℝ) ^ p * (2 * T * u) ≤ x := by rw [hm]; exact mul_le_mul_of_nonneg_right (not_lt.1 hc) hS0.le
      nlinarith
    exact_mod_cast this
  have hm1' : x ≤ (2 - 2 * u) * T := by
    have : ((m : ℝ) + 1) ≤ 2 ^ p := by exact_mod_cast hm1
    have := mul_le_mul_of_nonneg_right this hS0.le
    rw [add_mul, ← hm] at this
    have e : (2 : ℝ) ^ p * (2 * T * u) = 2 * T := by linear_combination 2 * T * hpu
    linarith
  by_cases hpow : x = T
  · -- a power of two
    have hrep : IsRep p emin (x * x) := by
      rw [hpow, hT, ← zpow_add₀ (by norm_num)]
      refine isRep_zpow hp ?_
      rw [hpow, hT, ← zpow_add₀ (by norm_num)] at h2
      have := (zpow_le_zpow_iff_right₀ (by norm_num : (1 : ℝ) < 2)).1 h2
      omega
    rw [roundNearest_exact hrep, Real.sqrt_mul_self h0.le, roundNearest_exact hx]
  · have hgt : T + 2 * T * u ≤ x := by
      have hlt : T < x := lt_of_le_of_ne hE1 (Ne.symm hpow)
      have e : T = ((2 ^ (p - 1) : Int) : ℝ) * (2 * T * u) := by
        have : (2 : ℝ) ^ p = 2 ^ (p - 1) * 2 := by rw [← pow_succ]; congr 1; omega
        rw [this] at hpu
        push_cast
        linear_combination (-T) * hpu
      have : (2 ^ (p - 1) : Int) < m := by
        have h' : ((2 ^ (p - 1) : Int) : ℝ) * (2 * T * u) < m * (2 * T * u) := by rw [← e, ← hm]; exact hlt
        exact_mod_cast lt_of_mul_lt_mul_right h' hS0.le
      have h' : ((2 ^ (p - 1) + 1 : Int) : ℝ) ≤ m := by exact_mod_cast this
      have := mul_le_mul_of_nonneg_right h' hS0.le
      rw [← hm] at this
      push_cast at this e ⊢
      linarith
    have herr := roundNearest_relative (p := p) (emin := emin) h2
    rw [← hu] at herr
    set s := roundNearest p emin (x * x) with hs
    have hxx : 0 < x * x := by positivity
    obtain ⟨e1, e2⟩ := abs_le.1 herr
    have hs0 : 0 ≤ s := by nlinarith
    set y := Real.sqrt s with hy
    have hyy : y * y = s := Real.mul_self_sqrt hs0
    have hy0 : 0 ≤ y := Real.sqrt_nonneg _
    have hylow : (1 - u) * x ≤ y := by
      apply Real.le_sqrt_of_sq_le
      nlinarith
    have hsum : (2 - u) * x ≤ y + x := by linarith
    have hkey : |y - x| < T * u := by
      have hprod : |y - x| * (y + x) ≤ u * (x * x) := by
        have : |y - x| * (y + x) = |s - x * x| := by
          rw [← hyy, show y * y - x * x = (y - x) * (y + x) by ring, abs_mul, abs_of_nonneg (by linarith : 0 ≤ y + x)]
        rw [this]; exact herr
      have h3 : |y - x| * ((2 - u) * x) ≤ u * (x * x) :=
        (mul_le_mul_of_nonneg_left hsum (abs_nonneg _)).trans hprod
      have h4 : |y - x| * (2 - u) ≤ u * x := by
        have : (|y - x| * (2 - u)) * x ≤ (u * x) * x := by linarith
        exact le_of_mul_le_mul_right this h0
      have h5 : u * x ≤ u * ((2 - 2 * u) * T) := mul_le_mul_of_nonneg_left hm1' hu0.le
      have h6 : |y - x| * (2 - u) < (T * u) * (2 - u) := by
        have : 0 < u * u * T := by positivity
        nlinarith
      exact lt_of_mul_lt_mul_right h6 (by linarith)
    obtain ⟨k1, k2⟩ := abs_lt.1 hkey
    have hyT : T ≤ y := by nlinarith
    have hyT2 : y < 2 * T := by nlinarith
    have hround := roundNearest_eq (p := p) (emin := emin) (r := y) E (by rw [abs_of_nonneg hy0]; exact hyT)
      (by rw [abs_of_nonneg hy0, zpow_add₀ (by norm_num), zpow_one, ← hT]; linarith) (by omega)
      (x := y / (2 * T * u)) (by rw [hS, div_mul_cancel₀ _ hS0.ne'])
    rw [hround, hS, nearestEven_of_near (m := m), ← hm]
    have : y / (2 * T * u) - m = (y - x) / (2 * T * u) := by
      rw [sub_div]; congr 1; rw [hm, mul_div_cancel_right₀ _ hS0.ne']
    rw [this, abs_div, abs_of_pos hS0, div_lt_iff₀ hS0]
    linarith

end Verif
