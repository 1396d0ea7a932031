import Verif.Proofs.Inequalities
import Verif.Proofs.Interim
import Verif.Props.CumulativeMoments
import Verif.Props.CumulativePairs
import Verif.Props.Window
/-
C85: inequalities between the reported statistics and the data.
C86: relations between regression, correlation, variance and covariance.
-/
namespace Verif.Props
open Scalar Exact

variable {w N : Nat} {ε : ℝ}

/-! ### C85 -/

open Cumulative in
/-- C85, cumulative: the mean lies within the data, the variance is at most `(hi - mean)(mean - lo)` and a
quarter of the squared range, and no value is further from the mean than `sqrt((n-1) variance)`. -/
theorem C85_variance (ops : List (Op ℝ)) (h : (sinceClear ops).length < 2 ^ w) (hne : sinceClear ops ≠ [])
    {lo hi : ℝ} (hb : ∀ x ∈ sinceClear ops, lo ≤ x ∧ x ≤ hi) :
    ∃ m v : ℝ, (Variance.run (finOps ops) : Variance w (E ε)).getMean = X.fin m
      ∧ (Variance.run (finOps ops) : Variance w (E ε)).variance = X.fin v
      ∧ lo ≤ m ∧ m ≤ hi ∧ v ≤ (hi - m) * (m - lo) ∧ v ≤ (hi - lo) ^ 2 / 4
      ∧ ∀ x ∈ sinceClear ops, (x - m) ^ 2 ≤ ((sinceClear ops).length - 1) * v := by
  have h1 : 1 ≤ (sinceClear ops).length := List.length_pos_iff.2 hne
  refine ⟨Spec.mean (sinceClear ops), Spec.variance (sinceClear ops), ?_, ((C02_variance ops h).1 h1).1, ?_, ?_,
    Spec.bhatia_davis hne hb, Spec.popoviciu hne hb, fun x hx => Spec.samuelson hx⟩
  · exact ((C01_mean_inherited _).1.1).trans (C01_mean ops h).1
  · exact (Spec.mean_bounds hne hb).1
  · exact (Spec.mean_bounds hne hb).2

open Window in
/-- C85, window filter. -/
theorem C85_window (hN : 1 ≤ N) (ops : List (Op ℝ)) (hne : sinceClear ops ≠ [])
    {lo hi : ℝ} (hb : ∀ x ∈ Spec.lastN N (sinceClear ops), lo ≤ x ∧ x ≤ hi) :
    ∃ (s : Variance N (E ε)) (m v : ℝ), Variance.run (finOps ops) = some s
      ∧ s.getMean = X.fin m ∧ s.variance = X.fin v
      ∧ lo ≤ m ∧ m ≤ hi ∧ v ≤ (hi - m) * (m - lo) ∧ v ≤ (hi - lo) ^ 2 / 4
      ∧ ∀ x ∈ Spec.lastN N (sinceClear ops), (x - m) ^ 2 ≤ (s.size - 1) * v := by
  have hl : Spec.lastN N (sinceClear ops) ≠ [] := by
    have := List.length_pos_iff.2 hne
    apply List.length_pos_iff.1; rw [Spec.length_lastN]; omega
  obtain ⟨s, hs, hv, -⟩ := C19_window_variance (ε := ε) hN ops
  obtain ⟨s', m, hs', hm, hg, hsz, -⟩ := C18_window_mean_inherited (N := N) hN (finOps ops : List (Op (E ε)))
  rw [hs] at hs'; cases hs'
  obtain ⟨m', hm', hgm⟩ := C18_window_mean (ε := ε) hN ops
  rw [hm] at hm'; cases hm'
  have hsize : s.size = (Spec.lastN N (sinceClear ops)).length := by
    obtain ⟨t, ht, hi⟩ := Variance.run_items (N := N) hN (finOps ops : List (Op (E ε)))
    rw [hs] at ht; cases ht
    show s.super.window.items.length = _
    rw [hi, Spec.length_lastN, Spec.length_lastN, sinceClear_finOps, List.length_map]
  refine ⟨s, Spec.mean (Spec.lastN N (sinceClear ops)), Spec.variance (Spec.lastN N (sinceClear ops)), hs,
    hg.trans hgm, hv (List.length_pos_iff.2 hl), (Spec.mean_bounds hl hb).1, (Spec.mean_bounds hl hb).2,
    Spec.bhatia_davis hl hb, Spec.popoviciu hl hb, fun x hx => ?_⟩
  rw [hsize]; exact Spec.samuelson hx

open Cumulative in
/-- C85: above the cut-off, kurtosis is between `1 + skewness²` and the number of values. -/
theorem C85_kurtosis (hε : 0 < ε) (ops : List (Op ℝ))
    (h : (sinceClear ops).length * (sinceClear ops).length < 2 ^ w) (h4 : ε ≤ Spec.central 4 (sinceClear ops)) :
    ∃ g k : ℝ, (Kurtosis.run (finOps ops) : Kurtosis w (E ε)).skewness = X.fin g
      ∧ (Kurtosis.run (finOps ops) : Kurtosis w (E ε)).kurtosis = X.fin k
      ∧ 1 + g ^ 2 ≤ k ∧ k ≤ (sinceClear ops).length := by
  have hne : Spec.central 2 (sinceClear ops) ≠ 0 := by
    intro e
    rw [central_four_of_two e] at h4
    linarith
  have h2 : 0 < Spec.central 2 (sinceClear ops) := lt_of_le_of_ne (Spec.central_two_nonneg _) (Ne.symm hne)
  have hn : sinceClear ops ≠ [] := by rintro e; rw [e] at h2; simp [Spec.central] at h2
  have hlt : (sinceClear ops).length < 2 ^ w := by
    have : 1 ≤ (sinceClear ops).length := List.length_pos_iff.2 hn
    nlinarith
  refine ⟨_, _, (C03_skewness_inherited _).1.trans (skewness_result hε ops hlt),
    ((C04_kurtosis hε ops h).2 h4).1, ?_, Spec.kurtosis_le h2⟩
  have := Spec.pearson_moments h2
  split_ifs
  · nlinarith [sq_nonneg (Spec.skewness (sinceClear ops))]
  · linarith

/-- Values 1, 2, 6 (mean 3, variance 14/3). -/
example : ∃ m v : ℝ, (Cumulative.Variance.run (finOps [.push 1, .push 2, .push 6]) : Cumulative.Variance 64 (E ε)).getMean
      = X.fin m
    ∧ (Cumulative.Variance.run (finOps [.push 1, .push 2, .push 6]) : Cumulative.Variance 64 (E ε)).variance = X.fin v
    ∧ v ≤ 25 / 4 := by
  obtain ⟨m, v, h1, h2, -, -, -, h3, -⟩ := C85_variance (w := 64) (ε := ε) [.push 1, .push 2, .push 6] (lo := 1)
    (hi := 6) (by simp [sinceClear]) (by simp [sinceClear]) (by simp [sinceClear]; norm_num)
  exact ⟨m, v, h1, h2, by linarith⟩

/-! ### C86 -/

theorem regression_moments {ps : List (ℝ × ℝ)} {a b : ℝ} (hne : ps ≠ [])
    (ha : a + b * Spec.mean (Spec.xsOf ps) = Spec.mean (Spec.ysOf ps))
    (hb : b * Spec.central 2 (Spec.xsOf ps) = Spec.cosum ps) :
    (ps.map fun p => p.2 - (a + b * p.1)).sum = 0 ∧ (ps.map fun p => p.1 * (p.2 - (a + b * p.1))).sum = 0 := by
  have hn := Spec.length_pos hne
  have gen1 : ∀ l : List (ℝ × ℝ), (l.map fun p => p.2 - (a + b * p.1)).sum
      = (Spec.ysOf l).sum - (l.length * a + b * (Spec.xsOf l).sum) := by
    intro l
    induction l with
    | nil => simp
    | cons p l ih => simp only [List.map_cons, List.sum_cons, ih, Spec.ysOf_cons, Spec.xsOf_cons, List.length_cons]
                     push_cast; ring
  have gen2 : ∀ (mx my : ℝ) (l : List (ℝ × ℝ)), (l.map fun p => p.1 * (p.2 - (a + b * p.1))).sum
      = mx * (l.map fun p => p.2 - (a + b * p.1)).sum + Spec.coabout mx my l - b * Spec.about 2 mx (Spec.xsOf l)
        + (my - a - b * mx) * Spec.about 1 mx (Spec.xsOf l) := by
    intro mx my l
    induction l with
    | nil => simp
    | cons p l ih =>
      simp only [List.map_cons, List.sum_cons, ih, Spec.coabout_cons, Spec.xsOf_cons, Spec.about_cons]; ring
  have h1 : (ps.map fun p => p.2 - (a + b * p.1)).sum = 0 := by
    rw [gen1, Spec.sum_eq_mean_mul (Spec.ysOf ps), Spec.sum_eq_mean_mul (Spec.xsOf ps), Spec.length_xsOf,
      Spec.length_ysOf, ← ha]
    ring
  refine ⟨h1, ?_⟩
  rw [gen2 (Spec.mean (Spec.xsOf ps)) (Spec.mean (Spec.ysOf ps)), h1, ← Spec.cosum_eq_coabout,
    ← Spec.central_eq_about, ← Spec.central_eq_about, Spec.central_one, hb]
  ring

open Cumulative in
/-- C86: the line passes through the point of the means, the residuals sum to 0 and are uncorrelated with
`x`. -/
theorem C86_residuals (ops : List (Op (ℝ × ℝ))) (h : (sinceClear ops).length < 2 ^ w)
    (h1 : 1 ≤ (sinceClear ops).length) :
    let s : Regression w (E ε) := Regression.run (finOps2 ops)
    let ps := sinceClear ops
    ∃ f : ℝ → ℝ, (∀ x : ℝ, s.at' (X.fin x) = X.fin (f x))
      ∧ f (Spec.mean (Spec.xsOf ps)) = Spec.mean (Spec.ysOf ps)
      ∧ (ps.map fun p => p.2 - f p.1).sum = 0
      ∧ (ps.map fun p => p.1 * (p.2 - f p.1)).sum = 0 := by
  intro s ps
  obtain ⟨hsl, hat⟩ := regression_result (ε := ε) ops h h1
  set b := (if Spec.central 2 (Spec.xsOf ps) = 0 then 0 else Spec.cosum ps / Spec.central 2 (Spec.xsOf ps)) with hb
  have hbc : b * Spec.central 2 (Spec.xsOf ps) = Spec.cosum ps := by
    rw [hb]
    split_ifs with hc
    · rw [Spec.cosum_eq_zero_of hc]; ring
    · exact div_mul_cancel₀ _ hc
  have hne : ps ≠ [] := List.length_pos_iff.1 h1
  have hr := regression_moments (a := Spec.mean (Spec.ysOf ps) - b * Spec.mean (Spec.xsOf ps)) (b := b) hne
    (by ring) hbc
  refine ⟨fun x => (Spec.mean (Spec.ysOf ps) - b * Spec.mean (Spec.xsOf ps)) + b * x, fun x => (hat x).trans ?_, ?_,
    hr.1, hr.2⟩
  · rw [X.fin_inj]; ring
  · ring

open Window in
/-- C86, window filter: the same about the pairs in the window. -/
theorem C86_window_residuals (hN : 1 ≤ N) (ops : List (Op (ℝ × ℝ))) (hne : sinceClear ops ≠ []) :
    let ps := Spec.lastN N (sinceClear ops)
    ∃ (s : Regression N (E ε)) (f : ℝ → ℝ), Regression.run (finOps2 ops) = some s
      ∧ (∀ x : ℝ, s.at' (X.fin x) = X.fin (f x))
      ∧ f (Spec.mean (Spec.xsOf ps)) = Spec.mean (Spec.ysOf ps)
      ∧ (ps.map fun p => p.2 - f p.1).sum = 0
      ∧ (ps.map fun p => p.1 * (p.2 - f p.1)).sum = 0 := by
  intro ps
  obtain ⟨s, hs, -, -, hat⟩ := window_regression_result (ε := ε) hN ops hne
  set b := (if Spec.central 2 (Spec.xsOf ps) = 0 then 0 else Spec.cosum ps / Spec.central 2 (Spec.xsOf ps)) with hb
  have hbc : b * Spec.central 2 (Spec.xsOf ps) = Spec.cosum ps := by
    rw [hb]
    split_ifs with hc
    · rw [Spec.cosum_eq_zero_of hc]; ring
    · exact div_mul_cancel₀ _ hc
  have hl : ps ≠ [] := by
    have := List.length_pos_iff.2 hne
    apply List.length_pos_iff.1; rw [Spec.length_lastN]; omega
  have hr := regression_moments (a := Spec.mean (Spec.ysOf ps) - b * Spec.mean (Spec.xsOf ps)) (b := b) hl
    (by ring) hbc
  refine ⟨s, fun x => (Spec.mean (Spec.ysOf ps) - b * Spec.mean (Spec.xsOf ps)) + b * x, hs,
    fun x => (hat x).trans ?_, ?_, hr.1, hr.2⟩
  · rw [X.fin_inj]; ring
  · ring

theorem central_pos_of_cut {ps : List (ℝ × ℝ)} (hε : 0 < ε)
    (hcut : ε ≤ Spec.variance (Spec.xsOf ps) * Spec.variance (Spec.ysOf ps)) :
    0 < Spec.central 2 (Spec.xsOf ps) ∧ 0 < Spec.central 2 (Spec.ysOf ps) := by
  have hx := Spec.central_two_nonneg (Spec.xsOf ps)
  have hy := Spec.central_two_nonneg (Spec.ysOf ps)
  have hpos : 0 < Spec.variance (Spec.xsOf ps) * Spec.variance (Spec.ysOf ps) := lt_of_lt_of_le hε hcut
  constructor
  · refine lt_of_le_of_ne hx fun e => ?_
    rw [Spec.variance, ← e] at hpos; simp at hpos
  · refine lt_of_le_of_ne hy fun e => ?_
    rw [Spec.variance, Spec.variance, ← e] at hpos; simp at hpos

open Cumulative in
/-- C86: above the cut-off of the correlation `r`, the slope is `r sqrt(var y / var x)`, the slopes of the
two regressions (`y` on `x` and `x` on `y`) have the product `r²`, and the sum of the squared residuals is
`n var y (1 - r²)`. -/
theorem C86_slope_correlation (hε : 0 < ε) (ops : List (Op (ℝ × ℝ))) (h : (sinceClear ops).length < 2 ^ w)
    (h1 : 1 ≤ (sinceClear ops).length)
    (hcut : ε ≤ Spec.variance (Spec.xsOf (sinceClear ops)) * Spec.variance (Spec.ysOf (sinceClear ops))) :
    ∃ r b b' : ℝ, (Correlation.run (finOps2 ops) : Correlation w (E ε)).value = X.fin r
      ∧ (Regression.run (finOps2 ops) : Regression w (E ε)).slope = X.fin b
      ∧ (Regression.run (finOps2 (ops.map (Op.map Prod.swap))) : Regression w (E ε)).slope = X.fin b'
      ∧ b = r * Real.sqrt (Spec.variance (Spec.ysOf (sinceClear ops)) / Spec.variance (Spec.xsOf (sinceClear ops)))
      ∧ b * b' = r ^ 2
      ∧ ∃ f : ℝ → ℝ, (∀ x : ℝ, (Regression.run (finOps2 ops) : Regression w (E ε)).at' (X.fin x) = X.fin (f x))
        ∧ ((sinceClear ops).map fun p => (p.2 - f p.1) ^ 2).sum
          = (sinceClear ops).length * Spec.variance (Spec.ysOf (sinceClear ops)) * (1 - r ^ 2) := by
  have hn : (0 : ℝ) < (sinceClear ops).length := by exact_mod_cast h1
  obtain ⟨hx, hy⟩ := central_pos_of_cut hε hcut
  have e := sinceClear_map Prod.swap ops
  have h' : (sinceClear (ops.map (Op.map Prod.swap))).length < 2 ^ w := by
    rw [e, List.length_map]; exact h
  have h1' : 1 ≤ (sinceClear (ops.map (Op.map Prod.swap))).length := by rw [e, List.length_map]; exact h1
  obtain ⟨hsl, hat⟩ := regression_result (ε := ε) ops h h1
  obtain ⟨hsl', -⟩ := regression_result (ε := ε) _ h' h1'
  have ex : Spec.xsOf ((sinceClear ops).map Prod.swap) = Spec.ysOf (sinceClear ops) := by
    simp [Spec.xsOf, Spec.ysOf, Function.comp_def]
  rw [if_neg hx.ne'] at hsl hat
  rw [e, ex, if_neg hy.ne', Spec.cosum_swap] at hsl'
  have hr := C10_pearson hε ops h h1 hcut
  generalize hps : sinceClear ops = ps at *
  set A := Spec.central 2 (Spec.xsOf ps) with hA
  set B := Spec.central 2 (Spec.ysOf ps) with hB
  set C := Spec.cosum ps with hC
  have hvx : Spec.variance (Spec.xsOf ps) = A / ps.length := by rw [Spec.variance, Spec.length_xsOf]
  have hvy : Spec.variance (Spec.ysOf ps) = B / ps.length := by rw [Spec.variance, Spec.length_ysOf]
  have hcv : Spec.covariance ps = C / ps.length := rfl
  have hsx : 0 < Real.sqrt A := Real.sqrt_pos.2 hx
  have hsy : 0 < Real.sqrt B := Real.sqrt_pos.2 hy
  have hsA : Real.sqrt A * Real.sqrt A = A := Real.mul_self_sqrt hx.le
  have hsB : Real.sqrt B * Real.sqrt B = B := Real.mul_self_sqrt hy.le
  have hsn : Real.sqrt ps.length * Real.sqrt ps.length = ps.length := Real.mul_self_sqrt hn.le
  have hsn0 : 0 < Real.sqrt ps.length := Real.sqrt_pos.2 hn
  have hrv : Spec.covariance ps / (Real.sqrt (Spec.variance (Spec.xsOf ps)) * Real.sqrt (Spec.variance (Spec.ysOf ps)))
      = C / (Real.sqrt A * Real.sqrt B) := by
    rw [hcv, hvx, hvy, Real.sqrt_div hx.le, Real.sqrt_div hy.le, div_mul_div_comm, hsn]
    field_simp
  rw [hrv] at hr
  refine ⟨_, _, _, hr, hsl, hsl', ?_, ?_, _, hat, ?_⟩
  · rw [hvx, hvy, div_div_div_cancel_right₀ hn.ne', Real.sqrt_div hy.le]
    rw [div_mul_div_comm, mul_comm C (Real.sqrt B), mul_comm (Real.sqrt A) (Real.sqrt B), mul_assoc,
      mul_div_mul_left _ _ hsy.ne', hsA]
  · rw [div_pow, mul_pow, sq (Real.sqrt A), sq (Real.sqrt B), hsA, hsB, sq C, div_mul_div_comm]
  · have hsse := Spec.sse_eq (Spec.mean (Spec.ysOf ps) - C / A * Spec.mean (Spec.xsOf ps)) (C / A) ps
    have e1 : (ps.map fun p => (p.2 - (Spec.mean (Spec.ysOf ps) - C / A * (Spec.mean (Spec.xsOf ps) - p.1))) ^ 2).sum
        = Spec.sse (Spec.mean (Spec.ysOf ps) - C / A * Spec.mean (Spec.xsOf ps)) (C / A) ps := by
      rw [Spec.sse]; congr 1; apply List.map_congr_left; intro p _; ring
    have e2 : (C / (Real.sqrt A * Real.sqrt B)) ^ 2 = C ^ 2 / (A * B) := by
      rw [div_pow, mul_pow, sq (Real.sqrt A), sq (Real.sqrt B), hsA, hsB]
    rw [e1, hsse, ← hA, ← hB, ← hC, hvy, e2]
    field_simp; ring

example (hε : 0 < ε) (hε1 : ε ≤ 1) : ∃ r b b' : ℝ,
    (Cumulative.Correlation.run (finOps2 [.push (0, 4), .push (4, -4), .push (2, 0)]) : Cumulative.Correlation 64 (E ε)).value
      = X.fin r
    ∧ (Cumulative.Regression.run (finOps2 [.push (0, 4), .push (4, -4), .push (2, 0)]) : Cumulative.Regression 64 (E ε)).slope
      = X.fin b ∧ b * b' = r ^ 2 := by
  have e : sinceClear [.push (0, 4), .push (4, -4), .push (2, 0)] = ([(0, 4), (4, -4), (2, 0)] : List (ℝ × ℝ)) := rfl
  obtain ⟨r, b, b', h1, h2, -, -, h3, -⟩ := C86_slope_correlation (w := 64) hε
    [.push (0, 4), .push (4, -4), .push (2, 0)] (by rw [e]; simp) (by rw [e]; simp) (by
      rw [e]; simp [Spec.variance, Spec.central, Spec.mean]; norm_num; linarith)
  exact ⟨r, b, b', h1, h2, h3⟩

end Verif.Props
