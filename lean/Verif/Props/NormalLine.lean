import Verif.Props.NormalTests
import Verif.Props.Relations
/-
C180: intervals for the slope and for the points of the regression line, computed from the results of the filters.
-/
namespace Verif.Props
open Filter Topology MeasureTheory ProbabilityTheory Verif.Stochastic Exact Cumulative
open scoped ENNReal

variable {ε : ℝ} {Ω : Type} {mΩ : MeasurableSpace Ω} {P : Measure Ω} [IsProbabilityMeasure P]
variable {Z : ℕ → Ω → ℝ × ℝ}

/-- A linear model: `y = β x + e` with an error `e` (its expectation is the intercept) that is independent of `x`. -/
structure LinearModel (Z : ℕ → Ω → ℝ × ℝ) (P : Measure Ω) (β : ℝ) : Prop where
  sample : Sample Z P
  hx : MemLp (fun ω => (Z 0 ω).1) 2 P
  hy : MemLp (fun ω => (Z 0 ω).2) 2 P
  indep : IndepFun (fun ω => (Z 0 ω).1) (fun ω => (Z 0 ω).2 - β * (Z 0 ω).1) P
  varx : Var[fun ω => (Z 0 ω).1; P] ≠ 0
  vare : Var[fun ω => (Z 0 ω).2 - β * (Z 0 ω).1; P] ≠ 0

/-- The results of the filters for the first `n` pairs. -/
noncomputable def lineOf (ε : ℝ) (w : ℕ) (z : ℕ → ℝ × ℝ) (n : ℕ) (x : ℝ) : E ε :=
  (Regression.run (finOps2 (pushFirst z n)) : Regression w (E ε)).at' (X.fin x)

theorem slope_line_result {w n : ℕ} (hn : 1 ≤ n) (hw : n < 2 ^ w) (z : ℕ → ℝ × ℝ) :
    let b := Spec.covariance (firstN z n) / Spec.variance (firstN (fun i => (z i).1) n)
    slopeOf ε w z n = X.fin b
    ∧ ∀ x, lineOf ε w z n x = X.fin (Spec.mean (firstN (fun i => (z i).2) n) - b * (Spec.mean (firstN (fun i => (z i).1) n) - x)) := by
  intro b
  have hs := sinceClear_pushFirst z n
  have hn' : (n : ℝ) ≠ 0 := by positivity
  have h := regression_result (ε := ε) (w := w) (pushFirst z n) (by rw [hs, firstN_length]; exact hw) (by rw [hs, firstN_length]; exact hn)
  simp only [hs, xsOf_firstN, ysOf_firstN] at h
  have hb : (if Spec.central 2 (firstN (fun i => (z i).1) n) = 0 then 0
      else Spec.cosum (firstN z n) / Spec.central 2 (firstN (fun i => (z i).1) n)) = b := by
    show _ = Spec.covariance (firstN z n) / Spec.variance (firstN (fun i => (z i).1) n)
    rw [Spec.covariance, Spec.variance, firstN_length, firstN_length]
    split_ifs with h0
    · rw [h0]; simp
    · field_simp
  rw [hb] at h
  exact ⟨h.1, h.2⟩

omit [IsProbabilityMeasure P] in
theorem measurable_cov (hZ : Sample Z P) (n : ℕ) : AEMeasurable (fun ω => Spec.covariance (firstN (Z · ω) n)) P := by
  rcases Nat.eq_zero_or_pos n with rfl | hn
  · simp [Spec.covariance, firstN]
  · simp only [Spec.covariance, firstN_length, fun ω => cosum_avg (Z · ω) 0 0 (n := n) (by omega)]
    refine AEMeasurable.sub ?_ ((measurable_avg (hZ.map measurable_fst) 1 0 n).mul (measurable_avg (hZ.map measurable_snd) 1 0 n))
    refine (Finset.aemeasurable_fun_sum _ fun i _ => ?_).div_const _
    have := (hZ.ident i).aemeasurable_fst
    exact (this.fst.sub_const 0).mul (this.snd.sub_const 0)

/-- The mean square of the residuals. -/
noncomputable def residual (z : ℕ → ℝ × ℝ) (n : ℕ) : ℝ :=
  Spec.variance (firstN (fun i => (z i).2) n)
    - Spec.covariance (firstN z n) / Spec.variance (firstN (fun i => (z i).1) n) * Spec.covariance (firstN z n)

theorem residual_nonneg (z : ℕ → ℝ × ℝ) (n : ℕ) : 0 ≤ residual z n := by
  have h := covariance_sq_le (firstN z n)
  rw [xsOf_firstN, ysOf_firstN] at h
  have hv : 0 ≤ Spec.variance (firstN (fun i => (z i).1) n) := Props.variance_nonneg _
  have hy : 0 ≤ Spec.variance (firstN (fun i => (z i).2) n) := Props.variance_nonneg _
  unfold residual
  rcases hv.eq_or_lt with h0 | h0
  · rw [← h0]; simpa using hy
  · rw [sub_nonneg, div_mul_eq_mul_div, div_le_iff₀ h0]
    nlinarith

omit [IsProbabilityMeasure P] in
theorem measurable_residual (hZ : Sample Z P) (n : ℕ) : AEMeasurable (fun ω => residual (Z · ω) n) P :=
  (measurable_variance (hZ.map measurable_snd) n).sub (((measurable_cov hZ n).div (measurable_variance (hZ.map measurable_fst) n)).mul (measurable_cov hZ n))

namespace LinearModel
variable {β : ℝ}

omit [IsProbabilityMeasure P] in
theorem he (h : LinearModel Z P β) : MemLp (fun ω => (Z 0 ω).2 - β * (Z 0 ω).1) 2 P := h.hy.sub (h.hx.const_mul β)

omit [IsProbabilityMeasure P] in
theorem errors (h : LinearModel Z P β) : Sample (fun i ω => ((Z i ω).1, (Z i ω).2 - β * (Z i ω).1)) P :=
  h.sample.map (g := fun z : ℝ × ℝ => (z.1, z.2 - β * z.1)) (by fun_prop)

theorem cov_eq (h : LinearModel Z P β) : cov[fun ω => (Z 0 ω).1, fun ω => (Z 0 ω).2; P] = β * Var[fun ω => (Z 0 ω).1; P] := by
  have h0 := h.indep.covariance_eq_zero h.hx h.he
  rw [covariance_fun_sub_right h.hx h.hy (h.hx.const_mul β), covariance_const_mul_right, covariance_self h.hx.1.aemeasurable] at h0
  linarith

/-- The slope of the model is the slope of the best linear predictor. -/
theorem slope_eq (h : LinearModel Z P β) : trueSlope (Z 0) P = β := by
  rw [trueSlope, h.cov_eq, mul_div_cancel_right₀ _ h.varx]

theorem vary (h : LinearModel Z P β) : Var[fun ω => (Z 0 ω).2; P]
    = Var[fun ω => (Z 0 ω).2 - β * (Z 0 ω).1; P] + β ^ 2 * Var[fun ω => (Z 0 ω).1; P] := by
  have e : Var[fun ω => (Z 0 ω).2 - β * (Z 0 ω).1; P] = cov[fun ω => (Z 0 ω).2 - β * (Z 0 ω).1, fun ω => (Z 0 ω).2 - β * (Z 0 ω).1; P] :=
    (covariance_self h.he.1.aemeasurable).symm
  rw [e, covariance_fun_sub_left h.hy (h.hx.const_mul β) h.he, covariance_const_mul_left, h.indep.covariance_eq_zero h.hx h.he,
    covariance_fun_sub_right h.hy h.hy (h.hx.const_mul β), covariance_const_mul_right, covariance_self h.hy.1.aemeasurable,
    covariance_comm, h.cov_eq]
  ring

theorem residual_ae (h : LinearModel Z P β) :
    ∀ᵐ ω ∂P, Tendsto (fun n => residual (Z · ω) n) atTop (𝓝 Var[fun ω => (Z 0 ω).2 - β * (Z 0 ω).1; P]) := by
  filter_upwards [C125_pairs_aux h.sample.iid h.hx h.hy] with ω hω
  obtain ⟨h1, h2, h3⟩ := hω
  simp only [xsOf_firstN, ysOf_firstN] at h2 h3
  have := h3.sub ((h1.div h2 h.varx).mul h1)
  have e : Var[fun ω => (Z 0 ω).2; P] - cov[fun ω => (Z 0 ω).1, fun ω => (Z 0 ω).2; P] / Var[fun ω => (Z 0 ω).1; P]
      * cov[fun ω => (Z 0 ω).1, fun ω => (Z 0 ω).2; P] = Var[fun ω => (Z 0 ω).2 - β * (Z 0 ω).1; P] := by
    rw [h.vary, h.cov_eq, mul_div_cancel_right₀ _ h.varx]; ring
  rw [e] at this
  exact this

end LinearModel

/-- C180: the interval `slope() ± q sqrt((Var(y) - slope() Cov(x, y)) / (n Var(x)))`, with the results of the variance and covariance filters,
contains the slope of the model with a probability that tends to the one intended. -/
theorem C180_slope {β : ℝ} (h : LinearModel Z P β) {w : ℕ → ℕ} (hw : ∀ n, n < 2 ^ w n) {q : ℝ} (hq : 0 ≤ q) :
    Tendsto (fun n : ℕ => P {ω | ∃ s vx vy c : ℝ, slopeOf ε (w n) (Z · ω) n = X.fin s
        ∧ (resultOf ε (w n) (fun i => (Z i ω).1) n).variance = X.fin vx ∧ (resultOf ε (w n) (fun i => (Z i ω).2) n).variance = X.fin vy
        ∧ covarianceOf ε (w n) (Z · ω) n = X.fin c ∧ |s - β| ≤ q * √((vy - s * c) / vx / n)}) atTop
      (𝓝 (gaussianReal 0 1 (Set.Icc (-q) q))) := by
  set V := Var[fun ω => (Z 0 ω).1; P] with hV
  set σ := Var[fun ω => (Z 0 ω).2 - β * (Z 0 ω).1; P] with hσ
  have hV0 : 0 < V := lt_of_le_of_ne (ProbabilityTheory.variance_nonneg _ _) h.varx.symm
  have hσ0 : 0 < σ := lt_of_le_of_ne (ProbabilityTheory.variance_nonneg _ _) h.vare.symm
  have zx := h.sample.map measurable_fst
  obtain ⟨hD, hVar⟩ := devProduct_indep (Y := fun ω => ((Z 0 ω).1, (Z 0 ω).2 - β * (Z 0 ω).1)) h.hx h.he h.indep
  obtain ⟨W, hW, e⟩ := clt_cov h.errors h.hx h.he hD
  rw [hVar] at hW
  have hm := measurable_variance zx
  have hl := variance_ae zx h.hx
  have hl' : ∀ᵐ ω ∂P, Tendsto (fun n => (Spec.variance (firstN (fun i => (Z i ω).1) n))⁻¹) atTop (𝓝 V⁻¹) := by
    filter_upwards [hl] with ω hω
    exact hω.inv₀ h.varx
  have hT := hW.continuous_comp_prodMk_of_tendstoInMeasure_const (g := fun z : ℝ × ℝ => z.1 * z.2) (by fun_prop)
    (tendstoInMeasure_of_tendsto_ae (fun n => (hm n).inv.aestronglyMeasurable) hl') fun n => (hm n).inv
  have hlim : (fun x : ℝ => √(V * σ) * x * V⁻¹) = fun x => √(σ / V) * x := by
    funext x
    have : √(V * σ) * V⁻¹ = √(σ / V) := by
      rw [Real.sqrt_mul hV0.le, Real.sqrt_div hσ0.le]
      have := Real.sq_sqrt hV0.le
      have h0 := (Real.sqrt_pos.2 hV0).ne'
      rw [eq_div_iff h0]
      field_simp
      rw [this]
    rw [← this]; ring
  have hT : TendstoInDistribution (fun n ω => W n ω * (Spec.variance (firstN (fun i => (Z i ω).1) n))⁻¹) atTop (fun x => √(σ / V) * x)
      (fun _ => P) (gaussianReal 0 1) := by rw [← hlim]; exact hT
  have key := coverage_of (div_pos hσ0 hV0) hT (V := fun n ω => residual (Z · ω) n / Spec.variance (firstN (fun i => (Z i ω).1) n))
    (fun n => (measurable_residual h.sample n).div (hm n)) (by
      filter_upwards [h.residual_ae, hl] with ω h1 h2
      exact h1.div h2 h.varx) hq
  have hin := tendstoInMeasure_of_tendsto_ae (fun n => (hm n).aestronglyMeasurable) hl
  rw [tendstoInMeasure_iff_norm] at hin
  refine prob_congr (measure_ne_top _ _) key (hin V hV0) ?_
  filter_upwards [eventually_ge_atTop 1] with n hn ω hω
  have hω : ¬ V ≤ ‖Spec.variance (firstN (fun i => (Z i ω).1) n) - V‖ := hω
  rw [not_le, Real.norm_eq_abs, abs_lt] at hω
  set v := Spec.variance (firstN (fun i => (Z i ω).1) n) with hv
  have hvpos : 0 < v := by linarith
  have hs := sinceClear_pushFirst (Z · ω) n
  have hc : covarianceOf ε (w n) (Z · ω) n = X.fin (Spec.covariance (firstN (Z · ω) n)) := by
    rw [covarianceOf, (C09_covariance (ε := ε) (pushFirst (Z · ω) n) (by rw [hs, firstN_length]; exact hw n)).2.2.1
      (by rw [hs, firstN_length]; exact hn), hs]
  have hW' : W n ω * v⁻¹ = √n * (Spec.covariance (firstN (Z · ω) n) / v - β) := by
    rw [e n hn ω, h.indep.covariance_eq_zero h.hx h.he, sub_zero, covariance_residual (Z · ω) β hn, xsOf_firstN]
    field_simp
    rw [← hv]
  show (W n ω * v⁻¹) ^ 2 ≤ q ^ 2 * (residual (Z · ω) n / v) ↔ _
  rw [hW', ← within_iff hn hq (div_nonneg (residual_nonneg _ _) hvpos.le), (slope_line_result hn (hw n) _).1,
    resultOf_variance hn (hw n), resultOf_variance hn (hw n), hc]
  constructor
  · intro h
    exact ⟨_, _, _, _, rfl, rfl, rfl, rfl, h⟩
  · rintro ⟨s, vx, vy, c, h1, h2, h3, h4, h5⟩
    rw [X.fin_inj] at h1 h2 h3 h4
    rw [← h1, ← h2, ← h3, ← h4] at h5
    exact h5

theorem squareFactor {X : Ω → ℝ} (hx : MemLp X 2 P) (k : ℝ) {a : ℝ} (ha : ∫ ω, X ω ∂P = a) :
    ∫ ω, (1 + k * (X ω - a)) ^ 2 ∂P = 1 + k ^ 2 * Var[X; P] := by
  have mx : MemLp (fun ω => X ω - a) 2 P := hx.sub (memLp_const a)
  have i1 : Integrable (fun ω => X ω - a) P := mx.integrable (by norm_num)
  have ha0 : ∫ ω, (X ω - a) ∂P = 0 := by
    rw [integral_sub (hx.integrable (by norm_num)) (integrable_const a), ha]; simp
  have e1 : (fun ω => (1 + k * (X ω - a)) ^ 2) = fun ω => 1 + 2 * k * (X ω - a) + k ^ 2 * (X ω - a) ^ 2 := by
    funext ω; ring
  have i2 : Integrable (fun ω => 1 + 2 * k * (X ω - a)) P := (integrable_const 1).add (i1.const_mul (2 * k))
  rw [e1, integral_add i2 (mx.integrable_sq.const_mul (k ^ 2)),
    integral_add (integrable_const 1) (i1.const_mul (2 * k)), integral_const_mul, integral_const_mul, ha0,
    variance_eq_integral hx.1.aemeasurable, ha]
  simp

/-- The product of a function of `x` and of the deviation of an independent error. -/
theorem productError {X e : Ω → ℝ} (hX : MemLp X 2 P) (he : MemLp e 2 P) (hi : IndepFun X e P) (h0 : ∫ ω, e ω ∂P = 0) :
    MemLp (fun ω => X ω * e ω) 2 P ∧ ∫ ω, X ω * e ω ∂P = 0 ∧ Var[fun ω => X ω * e ω; P] = (∫ ω, X ω ^ 2 ∂P) * ∫ ω, e ω ^ 2 ∂P := by
  have hi2 : IndepFun (fun ω => X ω ^ 2) (fun ω => e ω ^ 2) P :=
    hi.comp (φ := fun x : ℝ => x ^ 2) (ψ := fun x : ℝ => x ^ 2) (by fun_prop) (by fun_prop)
  have e2 : (fun ω => (X ω * e ω) ^ 2) = fun ω => X ω ^ 2 * e ω ^ 2 := by
    funext ω; exact mul_pow _ _ _
  have hD : MemLp (fun ω => X ω * e ω) 2 P := by
    refine (memLp_two_iff_integrable_sq (hX.1.mul he.1)).2 ?_
    show Integrable (fun ω => (X ω * e ω) ^ 2) P
    rw [e2]; exact hi2.integrable_mul hX.integrable_sq he.integrable_sq
  have hz : ∫ ω, X ω * e ω ∂P = 0 := by
    rw [hi.integral_fun_mul_eq_mul_integral hX.1 he.1, h0, mul_zero]
  refine ⟨hD, hz, ?_⟩
  have h1 : ∫ ω, (X ω * e ω) ^ 2 ∂P = (∫ ω, X ω ^ 2 ∂P) * ∫ ω, e ω ^ 2 ∂P := by
    rw [e2, hi2.integral_fun_mul_eq_mul_integral hX.integrable_sq.1 he.integrable_sq.1]
  rw [variance_eq_sub hD, hz, ← h1]
  simp

/-- The contribution of one pair to the error of the line at `x`. -/
theorem lineError {β : ℝ} (h : LinearModel Z P β) (k : ℝ) {a c : ℝ} (ha : ∫ ω, (Z 0 ω).1 ∂P = a)
    (hc : ∫ ω, ((Z 0 ω).2 - β * (Z 0 ω).1) ∂P = c) :
    MemLp (fun ω => (1 + k * ((Z 0 ω).1 - a)) * ((Z 0 ω).2 - β * (Z 0 ω).1 - c)) 2 P
      ∧ ∫ ω, (1 + k * ((Z 0 ω).1 - a)) * ((Z 0 ω).2 - β * (Z 0 ω).1 - c) ∂P = 0
      ∧ Var[fun ω => (1 + k * ((Z 0 ω).1 - a)) * ((Z 0 ω).2 - β * (Z 0 ω).1 - c); P]
        = Var[fun ω => (Z 0 ω).2 - β * (Z 0 ω).1; P] * (1 + k ^ 2 * Var[fun ω => (Z 0 ω).1; P]) := by
  have mx : MemLp (fun ω => (Z 0 ω).1 - a) 2 P := h.hx.sub (memLp_const a)
  have mX : MemLp (fun ω => 1 + k * ((Z 0 ω).1 - a)) 2 P :=
    MemLp.add (f := fun _ => (1 : ℝ)) (g := fun ω => k * ((Z 0 ω).1 - a)) (memLp_const 1) (mx.const_mul k)
  have me : MemLp (fun ω => (Z 0 ω).2 - β * (Z 0 ω).1 - c) 2 P := h.he.sub (memLp_const c)
  have hi : IndepFun (fun ω => 1 + k * ((Z 0 ω).1 - a)) (fun ω => (Z 0 ω).2 - β * (Z 0 ω).1 - c) P :=
    h.indep.comp (φ := fun x : ℝ => 1 + k * (x - a)) (ψ := fun x : ℝ => x - c) (by fun_prop) (by fun_prop)
  have hc0 : ∫ ω, ((Z 0 ω).2 - β * (Z 0 ω).1 - c) ∂P = 0 := by
    rw [integral_sub (h.he.integrable (by norm_num)) (integrable_const c), hc]; simp
  obtain ⟨h1, h2, h3⟩ := productError mX me hi hc0
  refine ⟨h1, h2, ?_⟩
  rw [h3, squareFactor h.hx k ha, variance_eq_integral h.he.1.aemeasurable, hc, mul_comm]

/-- C180: the same for the point of the line at `x`: the interval `at(x) ± q sqrt((Var(y) - slope() Cov(x, y)) / n (1 + (x - mean)^2 / Var(x)))`. -/
theorem C180_line {β : ℝ} (h : LinearModel Z P β) {w : ℕ → ℕ} (hw : ∀ n, n < 2 ^ w n) {q : ℝ} (hq : 0 ≤ q) (x : ℝ) :
    Tendsto (fun n : ℕ => P {ω | ∃ l s m vx vy c : ℝ, lineOf ε (w n) (Z · ω) n x = X.fin l ∧ slopeOf ε (w n) (Z · ω) n = X.fin s
        ∧ (resultOf ε (w n) (fun i => (Z i ω).1) n).getMean = X.fin m
        ∧ (resultOf ε (w n) (fun i => (Z i ω).1) n).variance = X.fin vx ∧ (resultOf ε (w n) (fun i => (Z i ω).2) n).variance = X.fin vy
        ∧ covarianceOf ε (w n) (Z · ω) n = X.fin c
        ∧ |l - ((∫ ω, ((Z 0 ω).2 - β * (Z 0 ω).1) ∂P) + β * x)| ≤ q * √((vy - s * c) * (1 + (x - m) ^ 2 / vx) / n)}) atTop
      (𝓝 (gaussianReal 0 1 (Set.Icc (-q) q))) := by
  set V := Var[fun ω => (Z 0 ω).1; P] with hV
  set σ := Var[fun ω => (Z 0 ω).2 - β * (Z 0 ω).1; P] with hσ
  set a := ∫ ω, (Z 0 ω).1 ∂P with ha
  set c := ∫ ω, ((Z 0 ω).2 - β * (Z 0 ω).1) ∂P with hc
  have hV0 : 0 < V := lt_of_le_of_ne (ProbabilityTheory.variance_nonneg _ _) h.varx.symm
  have hσ0 : 0 < σ := lt_of_le_of_ne (ProbabilityTheory.variance_nonneg _ _) h.vare.symm
  have zx := h.sample.map measurable_fst
  have ze : Sample (fun i ω => (Z i ω).2 - β * (Z i ω).1) P := h.errors.map measurable_snd
  obtain ⟨hD, hVar⟩ := devProduct_indep (Y := fun ω => ((Z 0 ω).1, (Z 0 ω).2 - β * (Z 0 ω).1)) h.hx h.he h.indep
  obtain ⟨W, hW, e⟩ := clt_cov h.errors h.hx h.he hD
  have hm := measurable_variance zx
  have hl := variance_ae zx h.hx
  have hmm := measurable_mean zx
  have hml : ∀ᵐ ω ∂P, Tendsto (fun n => Spec.mean (firstN (fun i => (Z i ω).1) n)) atTop (𝓝 a) := by
    filter_upwards [law zx.iid.indep zx.iid.ident measurable_id (h.hx.integrable (by norm_num))] with ω h
    exact h.congr fun n => by rw [mean_firstN]; rfl
  set k := (x - a) / V with hk
  obtain ⟨mD, iD, vD⟩ := lineError h k ha.symm hc.symm
  have zD : Sample (fun i ω => (1 + k * ((Z i ω).1 - a)) * ((Z i ω).2 - β * (Z i ω).1 - c)) P :=
    h.sample.map (g := fun z : ℝ × ℝ => (1 + k * (z.1 - a)) * (z.2 - β * z.1 - c)) (by fun_prop)
  have t1 := clt_mean zD mD
  rw [vD, iD] at t1
  -- two terms that vanish
  have m2 : ∀ n : ℕ, AEMeasurable (fun ω => (x - Spec.mean (firstN (fun i => (Z i ω).1) n)) / Spec.variance (firstN (fun i => (Z i ω).1) n) - k) P :=
    fun n => (((hmm n).const_sub x).div (hm n)).sub_const k
  have v2 := vanish_mul hW m2 (by
    filter_upwards [hl, hml] with ω h1 h2
    have := (((tendsto_const_nhds (x := x)).sub h2).div h1 h.varx).sub_const k
    rwa [show (x - a) / V - k = 0 from sub_self _] at this)
  have m3 : ∀ n : ℕ, AEMeasurable (fun ω => -(k * (Spec.mean (firstN (fun i => (Z i ω).1) n) - a))) P :=
    fun n => (((hmm n).sub_const a).const_mul k).neg
  have t3 := clt_mean ze h.he
  have v3 := vanish_mul t3 m3 (by
    filter_upwards [hml] with ω h2
    have := ((h2.sub_const a).const_mul k).neg
    rwa [sub_self, mul_zero, neg_zero] at this)
  have t2 := t1.add_of_tendstoInMeasure_const v2 (fun n => (hW.forall_aemeasurable n).mul (m2 n))
  have tt := t2.add_of_tendstoInMeasure_const v3 (fun n => (t3.forall_aemeasurable n).mul (m3 n))
  simp only [add_zero] at tt
  have hτ : 0 < σ * (1 + k ^ 2 * V) := by positivity
  have key := coverage_of hτ tt (V := fun n ω => residual (Z · ω) n
      * (1 + (x - Spec.mean (firstN (fun i => (Z i ω).1) n)) ^ 2 / Spec.variance (firstN (fun i => (Z i ω).1) n)))
    (fun n => (measurable_residual h.sample n).mul (((((hmm n).const_sub x).pow_const 2).div (hm n)).const_add 1)) (by
      filter_upwards [h.residual_ae, hl, hml] with ω h1 h2 h3
      have := h1.mul ((((((tendsto_const_nhds (x := x)).sub h3).pow 2).div h2 h.varx)).const_add 1)
      have e : σ * (1 + (x - a) ^ 2 / V) = σ * (1 + k ^ 2 * V) := by rw [hk]; field_simp
      rw [← e]
      exact this) hq
  have hin := tendstoInMeasure_of_tendsto_ae (fun n => (hm n).aestronglyMeasurable) hl
  rw [tendstoInMeasure_iff_norm] at hin
  refine prob_congr (measure_ne_top _ _) key (hin V hV0) ?_
  filter_upwards [eventually_ge_atTop 1] with n hn ω hω
  have hω : ¬ V ≤ ‖Spec.variance (firstN (fun i => (Z i ω).1) n) - V‖ := hω
  rw [not_le, Real.norm_eq_abs, abs_lt] at hω
  set v := Spec.variance (firstN (fun i => (Z i ω).1) n) with hv
  set m := Spec.mean (firstN (fun i => (Z i ω).1) n) with hm'
  have hvpos : 0 < v := by linarith
  have hn0 : n ≠ 0 := by omega
  have hn' : (n : ℝ) ≠ 0 := by exact_mod_cast hn0
  have hs := sinceClear_pushFirst (Z · ω) n
  have hcov : covarianceOf ε (w n) (Z · ω) n = X.fin (Spec.covariance (firstN (Z · ω) n)) := by
    rw [covarianceOf, (C09_covariance (ε := ε) (pushFirst (Z · ω) n) (by rw [hs, firstN_length]; exact hw n)).2.2.1
      (by rw [hs, firstN_length]; exact hn), hs]
  -- the error of the line
  set my := Spec.mean (firstN (fun i => (Z i ω).2) n) with hmy
  set me := Spec.mean (firstN (fun i => (Z i ω).2 - β * (Z i ω).1) n) with hme
  set C := Spec.covariance (firstN (Z · ω) n) with hC
  have e1 : me = my - β * m := by
    rw [hme, hmy, hm', mean_firstN, mean_firstN, mean_firstN, Finset.sum_sub_distrib, ← Finset.mul_sum]
    field_simp
  have e2 : W n ω = √n * (C - β * v) := by
    rw [e n hn ω, h.indep.covariance_eq_zero h.hx h.he, sub_zero, covariance_residual (Z · ω) β hn, xsOf_firstN]
  have e3 : C - β * v = Spec.mean (firstN (fun i => ((Z i ω).1 - a) * ((Z i ω).2 - β * (Z i ω).1 - c)) n) - (m - a) * (me - c) := by
    have := covariance_residual (Z · ω) β hn
    rw [xsOf_firstN] at this
    rw [hC, hv, ← this, Spec.covariance, firstN_length, cosum_avg _ a c hn0, ← mean_sub _ a hn0, ← mean_sub _ c hn0,
      mean_firstN (fun i => ((Z i ω).1 - a) * ((Z i ω).2 - β * (Z i ω).1 - c))]
  have e4 : Spec.mean (firstN (fun i => (1 + k * ((Z i ω).1 - a)) * ((Z i ω).2 - β * (Z i ω).1 - c)) n)
      = (me - c) + k * Spec.mean (firstN (fun i => ((Z i ω).1 - a) * ((Z i ω).2 - β * (Z i ω).1 - c)) n) := by
    rw [hme, mean_firstN, mean_firstN, mean_firstN]
    have : ∑ i ∈ Finset.range n, (1 + k * ((Z i ω).1 - a)) * ((Z i ω).2 - β * (Z i ω).1 - c)
        = (∑ i ∈ Finset.range n, ((Z i ω).2 - β * (Z i ω).1)) - n * c
          + k * ∑ i ∈ Finset.range n, ((Z i ω).1 - a) * ((Z i ω).2 - β * (Z i ω).1 - c) := by
      rw [Finset.mul_sum, show (n : ℝ) * c = ∑ i ∈ Finset.range n, c by simp, ← Finset.sum_sub_distrib, ← Finset.sum_add_distrib]
      exact Finset.sum_congr rfl fun i _ => by ring
    rw [this]
    field_simp
  have hW' : √n * (Spec.mean (firstN (fun i => (1 + k * ((Z i ω).1 - a)) * ((Z i ω).2 - β * (Z i ω).1 - c)) n) - 0)
      + W n ω * ((x - m) / v - k) + √n * (me - c) * -(k * (m - a)) = √n * (my - C / v * (m - x) - (c + β * x)) := by
    have e5 : Spec.mean (firstN (fun i => ((Z i ω).1 - a) * ((Z i ω).2 - β * (Z i ω).1 - c)) n) = C - β * v + (m - a) * (me - c) := by
      rw [e3]; ring
    rw [e4, e2, e5, e1]
    field_simp
    ring
  have hnn : 0 ≤ residual (Z · ω) n * (1 + (x - m) ^ 2 / v) := mul_nonneg (residual_nonneg _ _) (by positivity)
  show (√n * (Spec.mean (firstN (fun i => (1 + k * ((Z i ω).1 - a)) * ((Z i ω).2 - β * (Z i ω).1 - c)) n) - 0)
      + W n ω * ((x - m) / v - k) + √n * (me - c) * -(k * (m - a))) ^ 2 ≤ q ^ 2 * (residual (Z · ω) n * (1 + (x - m) ^ 2 / v)) ↔ _
  rw [hW', ← within_iff hn hq hnn, (slope_line_result hn (hw n) _).1, (slope_line_result hn (hw n) _).2,
    resultOf_variance hn (hw n), resultOf_variance hn (hw n), resultOf_mean (hw n), hcov]
  constructor
  · intro h
    exact ⟨_, _, _, _, _, _, rfl, rfl, rfl, rfl, rfl, rfl, h⟩
  · rintro ⟨l, s, m, vx, vy, c, h0, h1, hm, h2, h3, h4, h5⟩
    rw [X.fin_inj] at h0 h1 h2 h3 h4 hm
    rw [← h0, ← h1, ← h2, ← h3, ← h4, ← hm] at h5
    exact h5

/-! ### Non-vacuity -/

/-- `x` and `e` are throws of a coin with the sides 0 and 1, and `y = 2 x + e`: the line `1/2 + 2 x`. -/
theorem coinLine : LinearModel (fun i (ω : ℕ → ℝ × ℝ) => ((ω i).1, 2 * (ω i).1 + (ω i).2)) (Measure.infinitePi fun _ : ℕ => twoCoins 1) 2
    ∧ ∫ ω : ℕ → ℝ × ℝ, (2 * (ω 0).1 + (ω 0).2 - 2 * (ω 0).1) ∂(Measure.infinitePi fun _ : ℕ => twoCoins 1) = 1 / 2 := by
  obtain ⟨hs, hx, hy, hi, vx, vy⟩ := twoCoins_sample 1
  have e : (fun ω : ℕ → ℝ × ℝ => 2 * (ω 0).1 + (ω 0).2 - 2 * (ω 0).1) = fun ω => (ω 0).2 := by funext ω; ring
  have hp := half_prob 1
  refine ⟨⟨hs.map (g := fun z : ℝ × ℝ => (z.1, 2 * z.1 + z.2)) (by fun_prop), hx, (hx.const_mul 2).add hy, ?_, ?_, ?_⟩, ?_⟩
  · show IndepFun _ (fun ω : ℕ → ℝ × ℝ => 2 * (ω 0).1 + (ω 0).2 - 2 * (ω 0).1) _
    rw [e]; exact hi
  · show Var[fun ω : ℕ → ℝ × ℝ => (ω 0).1; _] ≠ 0
    rw [vx]; norm_num
  · show Var[fun ω : ℕ → ℝ × ℝ => 2 * (ω 0).1 + (ω 0).2 - 2 * (ω 0).1; _] ≠ 0
    rw [e, vy]; norm_num
  · rw [e, eval_integral (twoCoins 1) measurable_snd, twoCoins, integral_fun_snd (fun y : ℝ => y), coin_integral (by norm_num) (by norm_num)]
    simp
    norm_num

/-- The interval of two standard errors around `at(3)` contains the true value 13/2. -/
example : ∃ P : Measure (ℕ → ℝ × ℝ), IsProbabilityMeasure P ∧ ∃ Z : ℕ → (ℕ → ℝ × ℝ) → ℝ × ℝ,
    Tendsto (fun n : ℕ => P {ω | ∃ l s m vx vy c : ℝ, lineOf ε n (Z · ω) n 3 = X.fin l ∧ slopeOf ε n (Z · ω) n = X.fin s
        ∧ (resultOf ε n (fun i => (Z i ω).1) n).getMean = X.fin m
        ∧ (resultOf ε n (fun i => (Z i ω).1) n).variance = X.fin vx ∧ (resultOf ε n (fun i => (Z i ω).2) n).variance = X.fin vy
        ∧ covarianceOf ε n (Z · ω) n = X.fin c ∧ |l - 13 / 2| ≤ 2 * √((vy - s * c) * (1 + (3 - m) ^ 2 / vx) / n)}) atTop
      (𝓝 (gaussianReal 0 1 (Set.Icc (-2) 2))) := by
  have h := C180_line (ε := ε) coinLine.1 (w := fun n => n) (fun n => Nat.lt_two_pow_self) (q := 2) (by norm_num) 3
  rw [coinLine.2, show (1 / 2 : ℝ) + 2 * 3 = 13 / 2 by norm_num] at h
  exact ⟨_, inferInstance, _, h⟩

/-- The interval of two standard errors around the slope contains the true slope 2. -/
example : ∃ P : Measure (ℕ → ℝ × ℝ), IsProbabilityMeasure P ∧ ∃ Z : ℕ → (ℕ → ℝ × ℝ) → ℝ × ℝ,
    Tendsto (fun n : ℕ => P {ω | ∃ s vx vy c : ℝ, slopeOf ε n (Z · ω) n = X.fin s
        ∧ (resultOf ε n (fun i => (Z i ω).1) n).variance = X.fin vx ∧ (resultOf ε n (fun i => (Z i ω).2) n).variance = X.fin vy
        ∧ covarianceOf ε n (Z · ω) n = X.fin c ∧ |s - 2| ≤ 2 * √((vy - s * c) / vx / n)}) atTop
      (𝓝 (gaussianReal 0 1 (Set.Icc (-2) 2))) :=
  ⟨_, inferInstance, _, C180_slope (ε := ε) coinLine.1 (w := fun n => n) (fun n => Nat.lt_two_pow_self) (q := 2) (by norm_num)⟩

end Verif.Props
