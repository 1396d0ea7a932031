import Verif.Proofs.Rounding
/-
Computing with `double` numbers in proofs: the result of an operation is given as `m * 2^e` and checked.
-/
namespace Verif
open Scalar

/-- The nearest number, no tie. -/
theorem rnd64_near {r : ℝ} (m e : Int) (he : -1074 ≤ e) (h1 : (2 : ℝ) ^ 52 ≤ |r / 2 ^ e|) (h2 : |r / 2 ^ e| < 2 ^ 53)
    (hm : |r / 2 ^ e - m| < 1 / 2) : binary64.rnd r = m * 2 ^ e := by
  have hpos : (0 : ℝ) < 2 ^ e := by positivity
  have habs : |r / 2 ^ e| = |r| / 2 ^ e := by rw [abs_div, abs_of_pos hpos]
  rw [habs] at h1 h2
  rw [le_div_iff₀ hpos] at h1
  rw [div_lt_iff₀ hpos] at h2
  have e1 : (e + 52) + 1 - ((53 : Nat) : Int) = e := by push_cast; ring
  have h := roundNearest_eq (p := 53) (emin := -1074) (r := r) (x := r / 2 ^ e) (e + 52)
    (by rw [zpow_add₀ (by norm_num)]; norm_num; norm_num at h1; linarith)
    (by rw [add_assoc, zpow_add₀ (by norm_num)]; norm_num; norm_num at h2; linarith)
    (by rw [e1]; exact he) (by rw [e1]; field_simp)
  rw [e1] at h
  have hn : nearestEven (r / 2 ^ e) = m := by
    have a := nearestEven_err (r / 2 ^ e)
    have b : |((nearestEven (r / 2 ^ e) - m : Int) : ℝ)| < 1 := by
      push_cast
      have e2 : (nearestEven (r / 2 ^ e) : ℝ) - m = (nearestEven (r / 2 ^ e) - r / 2 ^ e) + (r / 2 ^ e - m) := by ring
      rw [e2]
      refine (abs_add_le _ _).trans_lt ?_
      linarith
    have c : |nearestEven (r / 2 ^ e) - m| < 1 := by exact_mod_cast b
    rw [Int.abs_lt_one_iff] at c
    omega
  rw [hn] at h
  exact h

/-- A tie is resolved towards the even neighbour. -/
theorem rnd64_tie {r : ℝ} (m e : Int) (he : -1074 ≤ e) (h1 : (2 : ℝ) ^ 52 ≤ |r / 2 ^ e|) (h2 : |r / 2 ^ e| < 2 ^ 53)
    (hm : r / 2 ^ e = m + 1 / 2) : binary64.rnd r = (if Even m then m else m + 1 : Int) * 2 ^ e := by
  have hpos : (0 : ℝ) < 2 ^ e := by positivity
  have habs : |r / 2 ^ e| = |r| / 2 ^ e := by rw [abs_div, abs_of_pos hpos]
  rw [habs] at h1 h2
  rw [le_div_iff₀ hpos] at h1
  rw [div_lt_iff₀ hpos] at h2
  have e1 : (e + 52) + 1 - ((53 : Nat) : Int) = e := by push_cast; ring
  have h := roundNearest_eq (p := 53) (emin := -1074) (r := r) (x := r / 2 ^ e) (e + 52)
    (by rw [zpow_add₀ (by norm_num)]; norm_num; norm_num at h1; linarith)
    (by rw [add_assoc, zpow_add₀ (by norm_num)]; norm_num; norm_num at h2; linarith)
    (by rw [e1]; exact he) (by rw [e1]; field_simp)
  rw [e1, hm, nearestEven_tie] at h
  exact h

/-- `m * 2^e` is a `double` number. -/
theorem double (m e : Int) (hm : |m| ≤ 2 ^ 53) (he : -1074 ≤ e) (he' : e ≤ 970) :
    IsRep 53 (-1074) ((m : ℝ) * 2 ^ e) ∧ binary64.fits ((m : ℝ) * 2 ^ e) := by
  refine ⟨isRep_mul (by norm_num) he hm, ?_⟩
  rw [binary64_fits, abs_mul, abs_of_pos (show (0 : ℝ) < 2 ^ e by positivity)]
  have h1 : |(m : ℝ)| ≤ 2 ^ (53 : Int) := by
    have : ((|m| : Int) : ℝ) ≤ ((2 ^ 53 : Int) : ℝ) := by exact_mod_cast hm
    push_cast at this
    norm_num at this ⊢; exact this
  have h2 : |(m : ℝ)| * 2 ^ e ≤ 2 ^ (53 : Int) * 2 ^ e := mul_le_mul_of_nonneg_right h1 (by positivity)
  refine h2.trans_lt ?_
  rw [← zpow_add₀ (by norm_num)]
  exact zpow_lt_zpow_right₀ (by norm_num) (by omega)

/-- An exact result. -/
theorem round64 {r : ℝ} (m e : Int) (hr : r = m * 2 ^ e) (hm : |m| ≤ 2 ^ 53) (he : -1074 ≤ e) (he' : e ≤ 970) :
    (X.round r : X binary64) = X.fin r := by
  obtain ⟨h1, h2⟩ := double m e hm he he'
  rw [hr]
  exact binary64_binary.round_exact h1 h2

/-- A rounded result. -/
theorem round64_of {r v : ℝ} (m e : Int) (h : binary64.rnd r = v) (hr : v = m * 2 ^ e) (hm : |m| ≤ 2 ^ 53) (he : -1074 ≤ e)
    (he' : e ≤ 970) : (X.round r : X binary64) = X.fin v := by
  obtain ⟨-, h2⟩ := double m e hm he he'
  unfold X.round
  rw [h, hr, if_pos h2]

/-- Integers of up to 53 bits are exact. -/
theorem round64_int {r : ℝ} (m : Int) (hr : r = m) (hm : |m| ≤ 2 ^ 53) : (X.round r : X binary64) = X.fin r :=
  round64 m 0 (by rw [hr]; simp) hm (by norm_num) (by norm_num)

theorem ofNat64 {n : Nat} (h : n ≤ 2 ^ 53) : (ofNat n : X binary64) = X.fin n := by
  rw [X.ofNat_eq]
  exact round64_int n (by simp) (by rw [abs_of_nonneg (by positivity)]; exact_mod_cast h)

end Verif
