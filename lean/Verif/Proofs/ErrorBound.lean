import Verif.Proofs.Rounded
import Mathlib.Tactic.GCongr
/-
Forward error bounds.  `F.Err u η`: the rounding error of an operation with exact result `r` is at most
`u |r| + η`.
-/
namespace Verif
open Scalar

/-- Rounding error: relative error `u`, or absolute error `η` where numbers underflow. -/
structure Fmt.Err (F : Fmt) (u η : ℝ) : Prop where
  u_nonneg : 0 ≤ u
  u_le : u ≤ 1 / 8
  eta_nonneg : 0 ≤ η
  err : ∀ r, |F.rnd r - r| ≤ u * |r| + η

variable {F : Fmt} {p : Nat} {emin : Int} {u η : ℝ}

theorem two_zpow_lastDigit_le {r : ℝ} (hr : r ≠ 0) :
    (2 : ℝ) ^ lastDigit p emin r ≤ 2 ^ (1 - (p : Int)) * |r| + 2 ^ emin := by
  have h1 : (0 : ℝ) < 2 ^ emin := by positivity
  have h2 : (0 : ℝ) < 2 ^ (1 - (p : Int)) := by positivity
  unfold lastDigit
  rcases le_total (Int.log 2 |r| + 1 - p) emin with h | h
  · rw [max_eq_right h]
    have := mul_nonneg h2.le (abs_nonneg r)
    linarith
  · rw [max_eq_left h]
    have := Int.zpow_log_le_self (b := 2) (by norm_num) (abs_pos.2 hr)
    push_cast at this
    have e : (2 : ℝ) ^ (Int.log 2 |r| + 1 - p) = 2 ^ (1 - (p : Int)) * 2 ^ Int.log 2 |r| := by
      rw [← zpow_add₀ (by norm_num)]; congr 1; ring
    rw [e]
    have := mul_le_mul_of_nonneg_left this h2.le
    linarith

/-- Any rounding direction: the error is at most one unit in the last place. -/
theorem Fmt.Binary.err (h : F.Binary p emin) (hp : 4 ≤ p) : F.Err (2 ^ (1 - (p : Int))) (2 ^ emin) where
  u_nonneg := by positivity
  u_le := by
    have : (2 : ℝ) ^ (1 - (p : Int)) ≤ 2 ^ (-3 : Int) := zpow_le_zpow_right₀ (by norm_num) (by omega)
    refine this.trans (by norm_num)
  eta_nonneg := by positivity
  err r := by
    by_cases hr : r = 0
    · subst hr
      rw [h.rnd_zero, _root_.sub_self, abs_zero]; positivity
    refine le_trans ?_ (two_zpow_lastDigit_le hr)
    set e := lastDigit p emin r with he
    have hpos : (0 : ℝ) < 2 ^ e := by positivity
    have hb := abs_lt.1 (abs_div_lastDigit_lt (p := p) (emin := emin) r)
    rw [← he] at hb
    set k := ⌊r / 2 ^ e⌋ with hk
    have k1 : (k : ℝ) * 2 ^ e ≤ r := by
      rw [← le_div_iff₀ hpos]; exact Int.floor_le _
    have k2 : r ≤ ((k + 1 : Int) : ℝ) * 2 ^ e := by
      rw [← div_le_iff₀ hpos]; push_cast; exact (Int.lt_floor_add_one _).le
    have hlo : -2 ^ p ≤ k := by
      rw [hk, Int.le_floor]; push_cast; exact hb.1.le
    have hhi : k < 2 ^ p := by
      rw [hk, Int.floor_lt]; push_cast; exact hb.2
    have hee : emin ≤ e := le_max_right _ _
    have h2p : (0 : Int) < 2 ^ p := by positivity
    have r1 := h.le_rnd (isRep_mul (p := p) (m := k) (by omega) hee (by rw [abs_le]; omega)) k1
    have r2 := h.rnd_le (isRep_mul (p := p) (m := k + 1) (by omega) hee (by rw [abs_le]; omega)) k2
    push_cast at r2 k2
    rw [abs_le]
    constructor <;> linarith

/-- Round to nearest: the error is at most half a unit in the last place. -/
theorem Fmt.ieee_err (hp : 3 ≤ p) (emax : Int) : (Fmt.ieee p emin emax).Err (2 ^ (-(p : Int))) (2 ^ (emin - 1)) where
  u_nonneg := by positivity
  u_le := by
    have : (2 : ℝ) ^ (-(p : Int)) ≤ 2 ^ (-3 : Int) := zpow_le_zpow_right₀ (by norm_num) (by omega)
    refine this.trans (by norm_num)
  eta_nonneg := by positivity
  err r := by
    by_cases hr : r = 0
    · subst hr
      have : (Fmt.ieee p emin emax).rnd 0 = 0 := roundNearest_exact (isRep_zero _ _)
      rw [this, sub_self, abs_zero, mul_zero, zero_add]; positivity
    have h1 := two_zpow_lastDigit_le (p := p) (emin := emin) hr
    have h2 : |(Fmt.ieee p emin emax).rnd r - r| ≤ 2 ^ lastDigit p emin r / 2 := roundNearest_err r
    have e1 : (2 : ℝ) ^ (1 - (p : Int)) = 2 * 2 ^ (-(p : Int)) := by
      rw [sub_eq_add_neg, zpow_add₀ (by norm_num), zpow_one]
    have e2 : (2 : ℝ) ^ (emin - 1) = 2 ^ emin / 2 := by rw [zpow_sub₀ (by norm_num), zpow_one]
    rw [e1] at h1
    rw [e2]
    linarith

theorem binary64_err : binary64.Err (2 ^ (-53 : Int)) (2 ^ (-1075 : Int)) := by
  have := Fmt.ieee_err (p := 53) (emin := -1074) (by norm_num) 1024
  exact this
theorem binary32_err : binary32.Err (2 ^ (-24 : Int)) (2 ^ (-150 : Int)) := by
  have := Fmt.ieee_err (p := 24) (emin := -149) (by norm_num) 128
  exact this

/-! ### Operations with a finite result -/

theorem X.eq_of_round_eq {r v : ℝ} (h : (X.round r : X F) = X.fin v) : v = F.rnd r := by
  unfold X.round at h
  split_ifs at h with h1
  injection h with h; exact h.symm

theorem X.fin_of_add {a v : ℝ} {y : X F} (h : X.fin a + y = X.fin v) : ∃ b, y = X.fin b ∧ v = F.rnd (a + b) := by
  cases y with
  | fin b => exact ⟨b, rfl, X.eq_of_round_eq h⟩
  | pinf => exact absurd h (by intro h; cases h)
  | ninf => exact absurd h (by intro h; cases h)
  | nan => exact absurd h (by intro h; cases h)

namespace Fmt.Err

/-- The error of `m + t (x - y)`. -/
theorem step (h : F.Err u η) {m x y t : ℝ} (ht : 0 ≤ t) :
    |F.rnd (m + F.rnd (t * F.rnd (x - y))) - (m + t * (x - y))|
      ≤ (1 + u) * (t * (u * ((1 + u) * |x - y| + η) + (u * |x - y| + η)) + η) + u * |m + t * (x - y)| + η := by
  have hu := h.u_nonneg
  have h1 := h.err (x - y)
  set d := F.rnd (x - y)
  have hd : |d| ≤ (1 + u) * |x - y| + η := by
    have : |d| ≤ |d - (x - y)| + |x - y| := by
      have := abs_add_le (d - (x - y)) (x - y); rwa [sub_add_cancel] at this
    linarith
  have h2 := h.err (t * d)
  set q := F.rnd (t * d)
  have hq : |q - t * (x - y)| ≤ t * (u * ((1 + u) * |x - y| + η) + (u * |x - y| + η)) + η := by
    have e : q - t * (x - y) = (q - t * d) + t * (d - (x - y)) := by ring
    rw [e]
    refine (abs_add_le _ _).trans ?_
    rw [abs_mul t, abs_of_nonneg ht]
    rw [abs_mul, abs_of_nonneg ht] at h2
    have := mul_le_mul_of_nonneg_left h1 ht
    have := mul_le_mul_of_nonneg_left hd (mul_nonneg hu ht)
    nlinarith
  have h3 := h.err (m + q)
  have hs : |m + q| ≤ |m + t * (x - y)| + |q - t * (x - y)| := by
    have e : m + q = (m + t * (x - y)) + (q - t * (x - y)) := by ring
    rw [e]; exact abs_add_le _ _
  have e : F.rnd (m + q) - (m + t * (x - y)) = (F.rnd (m + q) - (m + q)) + (q - t * (x - y)) := by ring
  rw [e]
  refine (abs_add_le _ _).trans ?_
  have := mul_le_mul_of_nonneg_left hs hu
  have := mul_le_mul_of_nonneg_left hq hu
  linarith

/-- The same with bounds of the numbers. -/
theorem step_le (h : F.Err u η) {m x y t B : ℝ} (ht : 0 ≤ t) (hd : |x - y| ≤ 2 * B) (hm : |m + t * (x - y)| ≤ B) :
    |F.rnd (m + F.rnd (t * F.rnd (x - y))) - (m + t * (x - y))| ≤ t * (5 * (u * B) + 2 * η) + (u * B + 3 * η) := by
  refine (h.step ht).trans ?_
  have hu := h.u_nonneg
  have hu8 := h.u_le
  have he := h.eta_nonneg
  have hB : 0 ≤ B := (abs_nonneg _).trans hm
  have huB := mul_nonneg hu hB
  have hue := mul_nonneg hu he
  have a1 : u * η ≤ 1 / 8 * η := mul_le_mul_of_nonneg_right hu8 he
  have a2 : u * (u * B) ≤ 1 / 8 * (u * B) := mul_le_mul_of_nonneg_right hu8 huB
  have b1 : u * ((1 + u) * |x - y| + η) + (u * |x - y| + η) ≤ 17 / 4 * (u * B) + 9 / 8 * η := by
    have c1 := mul_le_mul_of_nonneg_left hd hu
    have c2 := mul_le_mul_of_nonneg_left c1 hu
    nlinarith
  set Z := u * ((1 + u) * |x - y| + η) + (u * |x - y| + η)
  have b2 : t * Z ≤ t * (17 / 4 * (u * B) + 9 / 8 * η) := mul_le_mul_of_nonneg_left b1 ht
  have b3 : 0 ≤ t * (17 / 4 * (u * B) + 9 / 8 * η) := mul_nonneg ht (by linarith)
  have b4 : (1 + u) * (t * Z + η) ≤ 9 / 8 * (t * (17 / 4 * (u * B) + 9 / 8 * η) + η) := by
    refine mul_le_mul (by linarith) (by linarith) ?_ (by norm_num)
    have : 0 ≤ t * Z := mul_nonneg ht (by positivity)
    linarith
  have b5 := mul_le_mul_of_nonneg_left hm hu
  have b6 := mul_nonneg ht huB
  have b7 := mul_nonneg ht he
  nlinarith

end Fmt.Err

/-! ### The cumulative mean -/

namespace Cumulative
variable {w : Nat}

theorem spec_mean_append (xs : List ℝ) (x : ℝ) :
    ((xs.length : ℝ) + 1) * Spec.mean (xs ++ [x]) = xs.length * Spec.mean xs + x := by
  unfold Spec.mean
  rw [List.length_append, List.length_singleton, List.sum_append, List.sum_singleton]
  push_cast
  rw [mul_div_cancel₀ _ (by positivity)]
  rcases eq_or_ne xs [] with rfl | h
  · simp
  · have : (xs.length : ℝ) ≠ 0 := by exact_mod_cast (List.length_pos_iff.2 h).ne'
    field_simp

theorem Mean.rounded_err (hF : F.Binary p emin) (hE : F.Err u η) {B : ℝ} (xs : List ℝ) (hd : F.Data p emin xs)
    (hw : xs.length < 2 ^ w) (hp : xs.length ≤ 2 ^ p) (hfit : F.fits (xs.length : ℝ)) (hB : ∀ x ∈ xs, |x| ≤ B) :
    ∃ m, MeanInv F p emin w xs ((xs.map X.fin).foldl Mean.push Mean.init) m
      ∧ xs.length * |m - Spec.mean xs|
        ≤ xs.length * (5 * (u * B) + 2 * η) + xs.length * (xs.length + 1) / 2 * (u * B + 3 * η) := by
  induction xs using List.reverseRecOn with
  | nil => exact ⟨0, MeanInv.nil hF, by simp⟩
  | append_singleton xs x ih =>
    rw [List.length_append, List.length_singleton] at hw hp hfit ⊢
    have hxB : |x| ≤ B := hB x (by simp)
    have hB0 : 0 ≤ B := (abs_nonneg _).trans hxB
    obtain ⟨m, hm, he⟩ := ih hd.init (by omega) (by omega)
      (hF.fits_abs _ _ (by push_cast; rw [abs_of_nonneg (by positivity), abs_of_nonneg (by positivity)]; linarith) hfit)
      (fun y hy => hB y (List.mem_append_left _ hy))
    obtain ⟨m', hm', h1, -, -, -⟩ := hm.push hF hd hw
    rw [List.map_append, List.map_singleton, List.foldl_append]
    refine ⟨m', hm', ?_⟩
    set n := xs.length with hn
    have hc : (ofSize (((xs.map X.fin).foldl Mean.push Mean.init : Mean w (X F)).count + 1) : X F) = X.fin ((n : ℝ) + 1) := by
      rw [hm.count, ofNat_add_one, ofSize, toNat_ofNat_lt hw, X.ofNat_eq]
      rw [show (((n + 1 : Nat) : ℝ)) = (n : ℝ) + 1 by push_cast; rfl] at *
      refine hF.round_exact ?_ hfit
      have := isRep_mul (p := p) (emin := emin) (m := (n + 1 : Nat)) (e := 0) (by have := hF.digits; omega) hF.emin_le
        (by rw [abs_of_nonneg (by positivity)]; exact_mod_cast hp)
      simpa using this
    have hmB : |m| ≤ B := by
      rcases eq_or_ne xs [] with h0 | h0
      · rw [hm.empty h0, abs_zero]; exact hB0
      · obtain ⟨⟨a, ha, ham⟩, ⟨b, hb, hmb⟩⟩ := hm.within h0
        have ha' := abs_le.1 (hB a (List.mem_append_left _ ha))
        have hb' := abs_le.1 (hB b (List.mem_append_left _ hb))
        rw [abs_le]; constructor <;> linarith
    have hpos : (0 : ℝ) < (n : ℝ) + 1 := by positivity
    have hr : m' = F.rnd (m + F.rnd (1 / ((n : ℝ) + 1) * F.rnd (x - m))) := by
      have h2 := hm'.mean
      change ((xs.map X.fin).foldl Mean.push Mean.init : Mean w (X F)).mean + (X.fin x - _) / ofSize _ = X.fin m' at h2
      rw [hc, hm.mean, h1] at h2
      obtain ⟨b, hb, hv⟩ := X.fin_of_add h2
      rw [X.div_fin_of_ne _ hpos.ne'] at hb
      rw [hv, X.eq_of_round_eq hb]
      congr 3; ring
    have hle := hE.step_le (m := m) (x := x) (y := m) (t := 1 / ((n : ℝ) + 1)) (B := B) (by positivity)
      (by
        have := abs_sub x m
        linarith)
      (by
        have e : m + 1 / ((n : ℝ) + 1) * (x - m) = (n * m + x) / (n + 1) := by field_simp; ring
        rw [e, abs_div, abs_of_pos hpos, div_le_iff₀ hpos]
        refine (abs_add_le _ _).trans ?_
        rw [abs_mul, abs_of_nonneg (Nat.cast_nonneg n)]
        have := mul_le_mul_of_nonneg_left hmB (Nat.cast_nonneg (α := ℝ) n)
        linarith)
    rw [← hr] at hle
    have hμ := spec_mean_append xs x
    rw [← hn] at hμ
    push_cast
    have e : ((n : ℝ) + 1) * (m' - Spec.mean (xs ++ [x]))
        = (n + 1) * (m' - (m + 1 / ((n : ℝ) + 1) * (x - m))) + n * (m - Spec.mean xs) := by
      rw [mul_sub, hμ]; field_simp; ring
    have e2 : ((n : ℝ) + 1) * |m' - Spec.mean (xs ++ [x])| = |((n : ℝ) + 1) * (m' - Spec.mean (xs ++ [x]))| := by
      rw [abs_mul, abs_of_pos hpos]
    rw [e2, e]
    refine (abs_add_le _ _).trans ?_
    rw [abs_mul, abs_mul, abs_of_pos hpos, abs_of_nonneg (Nat.cast_nonneg (α := ℝ) n)]
    have := mul_le_mul_of_nonneg_left hle hpos.le
    have e3 : ((n : ℝ) + 1) * (1 / ((n : ℝ) + 1) * (5 * (u * B) + 2 * η) + (u * B + 3 * η))
        = (5 * (u * B) + 2 * η) + (n + 1) * (u * B + 3 * η) := by field_simp
    rw [e3] at this
    linarith

end Cumulative
end Verif
