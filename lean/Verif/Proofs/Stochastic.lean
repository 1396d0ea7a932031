import Verif.Props.Limits
import Mathlib.Probability.StrongLaw
import Mathlib.Probability.Moments.Covariance
/-
Averages of a sequence of numbers and of independent random variables.
-/
namespace Verif.Stochastic
open Filter Topology MeasureTheory ProbabilityTheory
open Verif.Props (sum_range_map)

/-- The first `n` values. -/
def firstN {β : Type} (x : ℕ → β) (n : ℕ) : List β := (List.range n).map x

theorem firstN_length {β : Type} (x : ℕ → β) (n : ℕ) : (firstN x n).length = n := by simp [firstN]

theorem about_firstN (x : ℕ → ℝ) (k : ℕ) (c : ℝ) (n : ℕ) :
    Spec.about k c (firstN x n) = ∑ i ∈ Finset.range n, (x i - c) ^ k := by
  rw [← sum_range_map, Spec.about, firstN, List.map_map]; rfl

theorem mean_firstN (x : ℕ → ℝ) (n : ℕ) : Spec.mean (firstN x n) = (∑ i ∈ Finset.range n, x i) / n := by
  rw [Spec.mean, firstN_length, firstN, sum_range_map]

/-- The averages of the powers of the deviations from `c`. -/
noncomputable def avg (x : ℕ → ℝ) (k : ℕ) (c : ℝ) (n : ℕ) : ℝ := (∑ i ∈ Finset.range n, (x i - c) ^ k) / n

theorem mean_sub (x : ℕ → ℝ) (c : ℝ) {n : ℕ} (hn : n ≠ 0) : Spec.mean (firstN x n) - c = avg x 1 c n := by
  have : (n : ℝ) ≠ 0 := by exact_mod_cast hn
  rw [mean_firstN, avg]
  simp only [pow_one, Finset.sum_sub_distrib, Finset.sum_const, Finset.card_range, nsmul_eq_mul]
  field_simp

theorem central_two_avg (x : ℕ → ℝ) (c : ℝ) {n : ℕ} (hn : n ≠ 0) :
    Spec.central 2 (firstN x n) / n = avg x 2 c n - avg x 1 c n ^ 2 := by
  have h0 : (n : ℝ) ≠ 0 := by exact_mod_cast hn
  have h := mean_sub x c hn
  rw [Spec.central_eq_about, show Spec.mean (firstN x n) = c + (Spec.mean (firstN x n) - c) by ring, Spec.about_two_shift, h,
    about_firstN, about_firstN, firstN_length]
  simp only [avg]
  field_simp
  ring

theorem central_three_avg (x : ℕ → ℝ) (c : ℝ) {n : ℕ} (hn : n ≠ 0) :
    Spec.central 3 (firstN x n) / n = avg x 3 c n - 3 * avg x 1 c n * avg x 2 c n + 2 * avg x 1 c n ^ 3 := by
  have h0 : (n : ℝ) ≠ 0 := by exact_mod_cast hn
  have h := mean_sub x c hn
  rw [Spec.central_eq_about, show Spec.mean (firstN x n) = c + (Spec.mean (firstN x n) - c) by ring, Spec.about_three_shift, h,
    about_firstN, about_firstN, about_firstN, firstN_length]
  simp only [avg]
  field_simp
  ring

theorem central_four_avg (x : ℕ → ℝ) (c : ℝ) {n : ℕ} (hn : n ≠ 0) :
    Spec.central 4 (firstN x n) / n
      = avg x 4 c n - 4 * avg x 1 c n * avg x 3 c n + 6 * avg x 1 c n ^ 2 * avg x 2 c n - 3 * avg x 1 c n ^ 4 := by
  have h0 : (n : ℝ) ≠ 0 := by exact_mod_cast hn
  have h := mean_sub x c hn
  rw [Spec.central_eq_about, show Spec.mean (firstN x n) = c + (Spec.mean (firstN x n) - c) by ring, Spec.about_four_shift, h,
    about_firstN, about_firstN, about_firstN, about_firstN, firstN_length]
  simp only [avg]
  field_simp
  ring

theorem coabout_firstN (z : ℕ → ℝ × ℝ) (a b : ℝ) (n : ℕ) :
    Spec.coabout a b (firstN z n) = ∑ i ∈ Finset.range n, ((z i).1 - a) * ((z i).2 - b) := by
  rw [← sum_range_map, Spec.coabout, firstN, List.map_map]; rfl

theorem xsOf_firstN (z : ℕ → ℝ × ℝ) (n : ℕ) : Spec.xsOf (firstN z n) = firstN (fun i => (z i).1) n := by
  simp [Spec.xsOf, firstN, Function.comp_def]

theorem ysOf_firstN (z : ℕ → ℝ × ℝ) (n : ℕ) : Spec.ysOf (firstN z n) = firstN (fun i => (z i).2) n := by
  simp [Spec.ysOf, firstN, Function.comp_def]

theorem cosum_avg (z : ℕ → ℝ × ℝ) (a b : ℝ) {n : ℕ} (hn : n ≠ 0) :
    Spec.cosum (firstN z n) / n = (∑ i ∈ Finset.range n, ((z i).1 - a) * ((z i).2 - b)) / n
      - avg (fun i => (z i).1) 1 a n * avg (fun i => (z i).2) 1 b n := by
  have h0 : (n : ℝ) ≠ 0 := by exact_mod_cast hn
  have h1 := mean_sub (fun i => (z i).1) a hn
  have h2 := mean_sub (fun i => (z i).2) b hn
  rw [Spec.cosum_eq_coabout, xsOf_firstN, ysOf_firstN,
    show Spec.mean (firstN (fun i => (z i).1) n) = a + (Spec.mean (firstN (fun i => (z i).1) n) - a) by ring,
    show Spec.mean (firstN (fun i => (z i).2) n) = b + (Spec.mean (firstN (fun i => (z i).2) n) - b) by ring,
    Spec.coabout_shift, h1, h2, xsOf_firstN, ysOf_firstN, about_firstN, about_firstN, coabout_firstN, firstN_length]
  simp only [avg]
  field_simp
  ring

/-! ### Limits -/

variable {x : ℕ → ℝ} {c s t k : ℝ}

theorem variance_limit (h1 : Tendsto (avg x 1 c) atTop (𝓝 0)) (h2 : Tendsto (avg x 2 c) atTop (𝓝 s)) :
    Tendsto (fun n => Spec.variance (firstN x n)) atTop (𝓝 s) := by
  have := h2.sub (h1.pow 2)
  rw [show s - 0 ^ 2 = s by ring] at this
  refine this.congr' ?_
  filter_upwards [eventually_ne_atTop 0] with n hn
  rw [← central_two_avg x c hn, Spec.variance, firstN_length]

theorem third_limit (h1 : Tendsto (avg x 1 c) atTop (𝓝 0)) (h2 : Tendsto (avg x 2 c) atTop (𝓝 s)) (h3 : Tendsto (avg x 3 c) atTop (𝓝 t)) :
    Tendsto (fun n => Spec.central 3 (firstN x n) / n) atTop (𝓝 t) := by
  have := (h3.sub ((h1.const_mul 3).mul h2)).add ((h1.pow 3).const_mul 2)
  rw [show t - 3 * 0 * s + 2 * 0 ^ 3 = t by ring] at this
  refine this.congr' ?_
  filter_upwards [eventually_ne_atTop 0] with n hn
  rw [← central_three_avg x c hn]

theorem fourth_limit (h1 : Tendsto (avg x 1 c) atTop (𝓝 0)) (h2 : Tendsto (avg x 2 c) atTop (𝓝 s)) (h3 : Tendsto (avg x 3 c) atTop (𝓝 t))
    (h4 : Tendsto (avg x 4 c) atTop (𝓝 k)) : Tendsto (fun n => Spec.central 4 (firstN x n) / n) atTop (𝓝 k) := by
  have := ((h4.sub ((h1.const_mul 4).mul h3)).add (((h1.pow 2).const_mul 6).mul h2)).sub ((h1.pow 4).const_mul 3)
  rw [show k - 4 * 0 * t + 6 * 0 ^ 2 * s - 3 * 0 ^ 4 = k by ring] at this
  refine this.congr' ?_
  filter_upwards [eventually_ne_atTop 0] with n hn
  rw [← central_four_avg x c hn]

theorem cov_limit {z : ℕ → ℝ × ℝ} {a b r : ℝ} (h1 : Tendsto (avg (fun i => (z i).1) 1 a) atTop (𝓝 0))
    (h2 : Tendsto (avg (fun i => (z i).2) 1 b) atTop (𝓝 0))
    (h : Tendsto (fun n : ℕ => (∑ i ∈ Finset.range n, ((z i).1 - a) * ((z i).2 - b)) / n) atTop (𝓝 r)) :
    Tendsto (fun n => Spec.covariance (firstN z n)) atTop (𝓝 r) := by
  have := h.sub (h1.mul h2)
  rw [show r - 0 * 0 = r by ring] at this
  refine this.congr' ?_
  filter_upwards [eventually_ne_atTop 0] with n hn
  rw [← cosum_avg z a b hn, Spec.covariance, firstN_length]

/-! ### Strong law -/

variable {Ω : Type} {mΩ : MeasurableSpace Ω} {P : Measure Ω}

/-- The averages of a function of independent, identically distributed values converge to its expectation. -/
theorem law {β : Type} [MeasurableSpace β] {Z : ℕ → Ω → β} (hindep : Pairwise fun i j => IndepFun (Z i) (Z j) P)
    (hident : ∀ i, IdentDistrib (Z i) (Z 0) P P) {g : β → ℝ} (hg : Measurable g) (hint : Integrable (fun ω => g (Z 0 ω)) P) :
    ∀ᵐ ω ∂P, Tendsto (fun n : ℕ => (∑ i ∈ Finset.range n, g (Z i ω)) / n) atTop (𝓝 (∫ ω, g (Z 0 ω) ∂P)) :=
  strong_law_ae_real (fun i ω => g (Z i ω)) hint (fun _ _ hij => (hindep hij).comp hg hg) fun i => (hident i).comp hg

end Verif.Stochastic
