import Verif.Props.Normal
/-
C173: for many independent data the covariance and the slope are normally distributed, and the interval around the variance computed from
the filter's own kurtosis contains the true variance with the intended probability.
-/
namespace Verif.Props
open Filter Topology MeasureTheory ProbabilityTheory Verif.Stochastic Exact Cumulative
open scoped ENNReal

variable {ε : ℝ} {Ω : Type} {mΩ : MeasurableSpace Ω} {P : Measure Ω} [IsProbabilityMeasure P]

omit [IsProbabilityMeasure P] in
/-- Events that differ only where something unlikely happens. -/
theorem prob_congr {A A' B : ℕ → Set Ω} {L : ℝ≥0∞} (hL : L ≠ ⊤) (h : Tendsto (fun n => P (A n)) atTop (𝓝 L))
    (hB : Tendsto (fun n => P (B n)) atTop (𝓝 0)) (hd : ∀ᶠ n in atTop, ∀ ω, ω ∉ B n → (ω ∈ A n ↔ ω ∈ A' n)) :
    Tendsto (fun n => P (A' n)) atTop (𝓝 L) := by
  have h1 : Tendsto (fun n => P (A n) - P (B n)) atTop (𝓝 L) := by
    have := ENNReal.Tendsto.sub h hB (Or.inl hL)
    rwa [tsub_zero] at this
  have h2 : Tendsto (fun n => P (A n) + P (B n)) atTop (𝓝 L) := by
    have := h.add hB
    rwa [add_zero] at this
  refine tendsto_of_tendsto_of_tendsto_of_le_of_le' h1 h2 ?_ ?_
  · filter_upwards [hd] with n hn
    rw [tsub_le_iff_right]
    refine (measure_mono fun ω hω => ?_).trans (measure_union_le _ _)
    by_cases hb : ω ∈ B n
    · exact Or.inr hb
    · exact Or.inl ((hn ω hb).1 hω)
  · filter_upwards [hd] with n hn
    refine (measure_mono fun ω hω => ?_).trans (measure_union_le _ _)
    by_cases hb : ω ∈ B n
    · exact Or.inr hb
    · exact Or.inl ((hn ω hb).2 hω)

section
variable {Z : ℕ → Ω → ℝ × ℝ}

omit [IsProbabilityMeasure P] in
theorem Sample.map {β γ : Type} [MeasurableSpace β] [MeasurableSpace γ] {Y : ℕ → Ω → β} (h : Sample Y P) {g : β → γ} (hg : Measurable g) :
    Sample (fun i ω => g (Y i ω)) P :=
  ⟨h.indep.comp (fun _ => g) fun _ => hg, fun i => (h.ident i).comp hg⟩

/-- The product of the deviations of a pair from the expectations. -/
noncomputable def devProduct (Y : Ω → ℝ × ℝ) (P : Measure Ω) (ω : Ω) : ℝ :=
  ((Y ω).1 - ∫ ω, (Y ω).1 ∂P) * ((Y ω).2 - ∫ ω, (Y ω).2 ∂P)

/-- The product of the deviations of the means vanishes faster than `1 / √n`. -/
theorem prod_mean_vanishes (hZ : Sample Z P) (hx : MemLp (fun ω => (Z 0 ω).1) 2 P) (hy : MemLp (fun ω => (Z 0 ω).2) 2 P) :
    TendstoInMeasure P (fun (n : ℕ) ω => -(√n * (Spec.mean (firstN (fun i => (Z i ω).1) n) - ∫ ω, (Z 0 ω).1 ∂P)
      * (Spec.mean (firstN (fun i => (Z i ω).2) n) - ∫ ω, (Z 0 ω).2 ∂P))) atTop (fun _ => 0) := by
  have zx := hZ.map measurable_fst
  have zy := hZ.map measurable_snd
  set a := ∫ ω, (Z 0 ω).1 ∂P with ha
  set b := ∫ ω, (Z 0 ω).2 ∂P with hb
  have hmeas : ∀ n, AEMeasurable (fun ω => Spec.mean (firstN (fun i => (Z i ω).2) n) - b) P := fun n => (measurable_mean zy n).sub_const b
  have hae : ∀ᵐ ω ∂P, Tendsto (fun n => Spec.mean (firstN (fun i => (Z i ω).2) n) - b) atTop (𝓝 0) := by
    filter_upwards [law zy.iid.indep zy.iid.ident measurable_id (hy.integrable (by norm_num))] with ω h
    have := h.sub_const b
    rw [show (∫ ω, id ((Z 0 ω).2) ∂P) - b = 0 from sub_self _] at this
    exact this.congr fun n => by rw [mean_firstN]; rfl
  have hd := (clt_mean zx hx).continuous_comp_prodMk_of_tendstoInMeasure_const (g := fun z : ℝ × ℝ => -|z.1 * z.2|) (by fun_prop)
    (tendstoInMeasure_of_tendsto_ae (fun n => (hmeas n).aestronglyMeasurable) hae) hmeas
  rw [tendstoInMeasure_iff_norm]
  intro δ hδ
  have key := prob_le_limit hd (t := -δ) (by simp [hδ.ne'])
  have h0 : (gaussianReal 0 1 {x : ℝ | -|√Var[fun ω => (Z 0 ω).1; P] * x * 0| ≤ -δ}) = 0 := by simp [not_le.2 hδ]
  rw [h0] at key
  refine key.congr fun n => ?_
  congr 1
  ext ω
  rw [Set.mem_ofPred_eq, Set.mem_ofPred_eq, sub_zero, norm_neg, Real.norm_eq_abs, neg_le_neg_iff]

/-- The central limit theorem for the covariance of the first `n` pairs. -/
theorem clt_cov (hZ : Sample Z P) (hx : MemLp (fun ω => (Z 0 ω).1) 2 P) (hy : MemLp (fun ω => (Z 0 ω).2) 2 P)
    (hxy : MemLp (devProduct (Z 0) P) 2 P) :
    ∃ W : ℕ → Ω → ℝ, TendstoInDistribution W atTop (fun x => √Var[devProduct (Z 0) P; P] * x) (fun _ => P) (gaussianReal 0 1)
      ∧ ∀ n : ℕ, 1 ≤ n → ∀ ω, W n ω = √n * (Spec.covariance (firstN (Z · ω) n) - cov[fun ω => (Z 0 ω).1, fun ω => (Z 0 ω).2; P]) := by
  have zx := hZ.map measurable_fst
  have zy := hZ.map measurable_snd
  set a := ∫ ω, (Z 0 ω).1 ∂P with ha
  set b := ∫ ω, (Z 0 ω).2 ∂P with hb
  have zd : Sample (fun i ω => ((Z i ω).1 - a) * ((Z i ω).2 - b)) P := hZ.map (g := fun z => (z.1 - a) * (z.2 - b)) (by fun_prop)
  have hmeas : ∀ n : ℕ, AEMeasurable (fun ω => -(√n * (Spec.mean (firstN (fun i => (Z i ω).1) n) - a)
      * (Spec.mean (firstN (fun i => (Z i ω).2) n) - b))) P :=
    fun n => ((((measurable_mean zx n).sub_const a).const_mul _).mul ((measurable_mean zy n).sub_const b)).neg
  have hd := (clt_mean zd hxy).add_of_tendstoInMeasure_const (prod_mean_vanishes hZ hx hy) hmeas
  simp only [add_zero] at hd
  refine ⟨_, hd, fun n hn ω => ?_⟩
  have h1 : Spec.covariance (firstN (Z · ω) n) = Spec.mean (firstN (fun i => ((Z i ω).1 - a) * ((Z i ω).2 - b)) n)
      - (Spec.mean (firstN (fun i => (Z i ω).1) n) - a) * (Spec.mean (firstN (fun i => (Z i ω).2) n) - b) := by
    rw [Spec.covariance, firstN_length, cosum_avg (Z · ω) a b (by omega), ← mean_sub _ a (by omega), ← mean_sub _ b (by omega),
      mean_firstN (fun i => ((Z i ω).1 - a) * ((Z i ω).2 - b))]
  have h2 : cov[fun ω => (Z 0 ω).1, fun ω => (Z 0 ω).2; P] = ∫ ω, ((Z 0 ω).1 - a) * ((Z 0 ω).2 - b) ∂P := rfl
  rw [h1, h2]
  show √n * (Spec.mean (firstN (fun i => ((Z i ω).1 - a) * ((Z i ω).2 - b)) n) - ∫ ω, ((Z 0 ω).1 - a) * ((Z 0 ω).2 - b) ∂P)
    + -(√n * (Spec.mean (firstN (fun i => (Z i ω).1) n) - a) * (Spec.mean (firstN (fun i => (Z i ω).2) n) - b)) = _
  ring

/-- The results of the filters for the first `n` pairs. -/
noncomputable def covarianceOf (ε : ℝ) (w : ℕ) (z : ℕ → ℝ × ℝ) (n : ℕ) : E ε := (Comoment.run (finOps2 (pushFirst z n)) : Comoment w (E ε)).variance
noncomputable def slopeOf (ε : ℝ) (w : ℕ) (z : ℕ → ℝ × ℝ) (n : ℕ) : E ε := (Regression.run (finOps2 (pushFirst z n)) : Regression w (E ε)).slope

/-- C173: the covariance is normally distributed in the limit. -/
theorem C173_covariance (hZ : Sample Z P) (hx : MemLp (fun ω => (Z 0 ω).1) 2 P) (hy : MemLp (fun ω => (Z 0 ω).2) 2 P)
    (hxy : MemLp (devProduct (Z 0) P) 2 P) (hV : Var[devProduct (Z 0) P; P] ≠ 0) {w : ℕ → ℕ} (hw : ∀ n, n < 2 ^ w n) (t : ℝ) :
    Tendsto (fun n : ℕ => P {ω | ∃ c : ℝ, covarianceOf ε (w n) (Z · ω) n = X.fin c
        ∧ √n * (c - cov[fun ω => (Z 0 ω).1, fun ω => (Z 0 ω).2; P]) ≤ t * √Var[devProduct (Z 0) P; P]}) atTop
      (𝓝 (gaussianReal 0 1 (Set.Iic t))) := by
  have hV0 : 0 < Var[devProduct (Z 0) P; P] := lt_of_le_of_ne (ProbabilityTheory.variance_nonneg _ _) hV.symm
  obtain ⟨W, hW, e⟩ := clt_cov hZ hx hy hxy
  refine (normal_limit (Real.sqrt_pos.2 hV0) hW t).congr' ?_
  filter_upwards [eventually_ge_atTop 1] with n hn
  congr 1
  ext ω
  have hs := sinceClear_pushFirst (Z · ω) n
  have hc : covarianceOf ε (w n) (Z · ω) n = X.fin (Spec.covariance (firstN (Z · ω) n)) := by
    rw [covarianceOf, (C09_covariance (ε := ε) (pushFirst (Z · ω) n) (by rw [hs, firstN_length]; exact hw n)).2.2.1
      (by rw [hs, firstN_length]; exact hn), hs]
  rw [Set.mem_ofPred_eq, Set.mem_ofPred_eq, hc, e n hn]
  constructor
  · intro h
    exact ⟨_, rfl, h⟩
  · rintro ⟨c, h1, h2⟩
    rw [X.fin_inj] at h1
    rw [h1]; exact h2

/-- The slope of the best linear predictor. -/
noncomputable def trueSlope (Y : Ω → ℝ × ℝ) (P : Measure Ω) : ℝ := cov[fun ω => (Y ω).1, fun ω => (Y ω).2; P] / Var[fun ω => (Y ω).1; P]

/-- The error of the best linear predictor, times the deviation of `x`. -/
noncomputable def residualProduct (Y : Ω → ℝ × ℝ) (P : Measure Ω) (ω : Ω) : ℝ :=
  ((Y ω).1 - ∫ ω, (Y ω).1 ∂P) * (((Y ω).2 - ∫ ω, (Y ω).2 ∂P) - trueSlope Y P * ((Y ω).1 - ∫ ω, (Y ω).1 ∂P))

/-- Covariance with a line subtracted. -/
theorem covariance_residual (z : ℕ → ℝ × ℝ) (β : ℝ) {n : ℕ} (hn : 1 ≤ n) :
    Spec.covariance (firstN (fun i => ((z i).1, (z i).2 - β * (z i).1)) n)
      = Spec.covariance (firstN z n) - β * Spec.variance (Spec.xsOf (firstN z n)) := by
  have hn0 : n ≠ 0 := by omega
  rw [Spec.covariance, Spec.covariance, Spec.variance, xsOf_firstN, firstN_length, firstN_length, firstN_length,
    cosum_avg _ 0 0 hn0, cosum_avg z 0 0 hn0, central_two_avg _ 0 hn0]
  simp only [avg, sub_zero, pow_one]
  have e1 : ∑ i ∈ Finset.range n, (z i).1 * ((z i).2 - β * (z i).1)
      = (∑ i ∈ Finset.range n, (z i).1 * (z i).2) - β * ∑ i ∈ Finset.range n, (z i).1 ^ 2 := by
    rw [Finset.mul_sum, ← Finset.sum_sub_distrib]
    exact Finset.sum_congr rfl fun i _ => by ring
  have e2 : ∑ i ∈ Finset.range n, ((z i).2 - β * (z i).1) = (∑ i ∈ Finset.range n, (z i).2) - β * ∑ i ∈ Finset.range n, (z i).1 := by
    rw [Finset.mul_sum, ← Finset.sum_sub_distrib]
  rw [e1, e2]
  ring

/-- C173: the slope is normally distributed in the limit; the variance of `√n (slope() - b)` tends to `E ((x - E x)^2 r^2) / Var(x)^2` with the
error `r` of the best linear predictor. -/
theorem C173_slope (hZ : Sample Z P) (hx : MemLp (fun ω => (Z 0 ω).1) 2 P) (hy : MemLp (fun ω => (Z 0 ω).2) 2 P)
    (hr : MemLp (residualProduct (Z 0) P) 2 P) (hVx : Var[fun ω => (Z 0 ω).1; P] ≠ 0) (hV : (∫ ω, residualProduct (Z 0) P ω ^ 2 ∂P) ≠ 0)
    {w : ℕ → ℕ} (hw : ∀ n, n < 2 ^ w n) (t : ℝ) :
    Tendsto (fun n : ℕ => P {ω | ∃ s : ℝ, slopeOf ε (w n) (Z · ω) n = X.fin s
        ∧ √n * (s - trueSlope (Z 0) P) ≤ t * (√(∫ ω, residualProduct (Z 0) P ω ^ 2 ∂P) / Var[fun ω => (Z 0 ω).1; P])}) atTop
      (𝓝 (gaussianReal 0 1 (Set.Iic t))) := by
  set β := trueSlope (Z 0) P with hβ
  set a := ∫ ω, (Z 0 ω).1 ∂P with ha
  set b := ∫ ω, (Z 0 ω).2 ∂P with hb
  set V := Var[fun ω => (Z 0 ω).1; P] with hVdef
  have hVpos : 0 < V := lt_of_le_of_ne (ProbabilityTheory.variance_nonneg _ _) hVx.symm
  have hZ' : Sample (fun i ω => ((Z i ω).1, (Z i ω).2 - β * (Z i ω).1)) P :=
    hZ.map (g := fun z : ℝ × ℝ => (z.1, z.2 - β * z.1)) (by fun_prop)
  have hy' : MemLp (fun ω => (Z 0 ω).2 - β * (Z 0 ω).1) 2 P := hy.sub (hx.const_mul β)
  have ix := hx.integrable (show (1 : ℝ≥0∞) ≤ 2 by norm_num)
  have iy := hy.integrable (show (1 : ℝ≥0∞) ≤ 2 by norm_num)
  have hmean : ∫ ω, ((Z 0 ω).2 - β * (Z 0 ω).1) ∂P = b - β * a := by
    rw [integral_sub iy (ix.const_mul β), integral_const_mul]
  have hprod : devProduct (fun ω => ((Z 0 ω).1, (Z 0 ω).2 - β * (Z 0 ω).1)) P = residualProduct (Z 0) P := by
    funext ω
    show ((Z 0 ω).1 - a) * (((Z 0 ω).2 - β * (Z 0 ω).1) - ∫ ω, ((Z 0 ω).2 - β * (Z 0 ω).1) ∂P)
      = ((Z 0 ω).1 - a) * (((Z 0 ω).2 - b) - β * ((Z 0 ω).1 - a))
    rw [hmean]; ring
  have hcov : cov[fun ω => (Z 0 ω).1, fun ω => (Z 0 ω).2 - β * (Z 0 ω).1; P] = 0 := by
    rw [covariance_fun_sub_right hx hy (hx.const_mul β), covariance_const_mul_right, covariance_self hx.1.aemeasurable, hβ, trueSlope,
      div_mul_cancel₀ _ hVx, sub_self]
  have hzero : ∫ ω, residualProduct (Z 0) P ω ∂P = 0 := by
    rw [← hprod]
    exact hcov
  have hVar : Var[residualProduct (Z 0) P; P] = ∫ ω, residualProduct (Z 0) P ω ^ 2 ∂P := by
    rw [variance_eq_sub hr, hzero]; simp
  obtain ⟨W, hW, e⟩ := clt_cov hZ' hx hy' (by simpa only [hprod] using hr)
  rw [hprod, hVar] at hW
  set S := ∫ ω, residualProduct (Z 0) P ω ^ 2 ∂P with hS
  have hS0 : 0 < S := lt_of_le_of_ne (integral_nonneg fun ω => sq_nonneg _) hV.symm
  have hs0 := Real.sqrt_pos.2 hS0
  have zx := hZ.map measurable_fst
  have hm : ∀ n, AEMeasurable (fun ω => Spec.variance (firstN (fun i => (Z i ω).1) n)) P := measurable_variance zx
  have hin := tendstoInMeasure_of_tendsto_ae (fun n => (hm n).aestronglyMeasurable) (variance_ae zx hx)
  have h := hW.continuous_comp_prodMk_of_tendstoInMeasure_const (g := fun z : ℝ × ℝ => z.1 - t * √S / V * z.2) (by fun_prop) hin hm
  have hlim : ∀ x : ℝ, √S * x - t * √S / V * V = √S * (x - t) := by intro x; field_simp
  have := nullSingletonClass_gaussianReal (μ := 0) (v := 1) one_ne_zero
  have key := prob_le_limit h (t := 0) (by
    refine measure_mono_null (t := {t}) ?_ ((Set.toFinite _).measure_zero _)
    intro x hx
    have hx : √S * x - t * √S / V * V = 0 := hx
    rw [hlim] at hx
    exact sub_eq_zero.1 ((mul_eq_zero.1 hx).resolve_left hs0.ne'))
  have hset : {x : ℝ | √S * x - t * √S / V * V ≤ 0} = Set.Iic t := by
    ext x
    rw [Set.mem_ofPred_eq, Set.mem_Iic, hlim]
    constructor
    · intro h
      by_contra hc
      have := mul_pos hs0 (sub_pos.2 (not_le.1 hc))
      linarith
    · intro h
      exact mul_nonpos_of_nonneg_of_nonpos hs0.le (sub_nonpos.2 h)
  have key : Tendsto (fun n => P {ω | W n ω - t * √S / V * Spec.variance (firstN (fun i => (Z i ω).1) n) ≤ 0}) atTop
      (𝓝 (gaussianReal 0 1 (Set.Iic t))) := by rw [← hset]; exact key
  rw [tendstoInMeasure_iff_norm] at hin
  refine prob_congr (measure_ne_top _ _) key (hin V hVpos) ?_
  filter_upwards [eventually_ge_atTop 1] with n hn ω hω
  have hω : ¬ V ≤ ‖Spec.variance (firstN (fun i => (Z i ω).1) n) - V‖ := hω
  rw [not_le, Real.norm_eq_abs, abs_lt] at hω
  set v := Spec.variance (firstN (fun i => (Z i ω).1) n) with hv
  have hvpos : 0 < v := by linarith
  have hs := sinceClear_pushFirst (Z · ω) n
  have hn' : (n : ℝ) ≠ 0 := by positivity
  have hslope : slopeOf ε (w n) (Z · ω) n = X.fin (Spec.covariance (firstN (Z · ω) n) / v) := by
    rw [slopeOf, (regression_result (ε := ε) (pushFirst (Z · ω) n) (by rw [hs, firstN_length]; exact hw n)
      (by rw [hs, firstN_length]; exact hn)).1, hs, X.fin_inj]
    have hce : Spec.central 2 (Spec.xsOf (firstN (Z · ω) n)) ≠ 0 := by
      intro e
      rw [xsOf_firstN] at e
      rw [hv, Spec.variance, e, zero_div] at hvpos
      exact lt_irrefl _ hvpos
    rw [if_neg hce, hv, ← xsOf_firstN, Spec.covariance, Spec.variance, Spec.length_xsOf, firstN_length]
    field_simp
  have hW' : W n ω = √n * (Spec.covariance (firstN (Z · ω) n) - β * v) := by
    rw [e n hn ω, hcov, sub_zero, covariance_residual (Z · ω) β hn, xsOf_firstN]
  have hiff : W n ω - t * √S / V * v ≤ 0 ↔ √n * (Spec.covariance (firstN (Z · ω) n) / v - β) ≤ t * (√S / V) := by
    have h1 : √(n : ℝ) * (Spec.covariance (firstN (Z · ω) n) / v - β) = W n ω / v := by
      rw [hW']; field_simp
    rw [h1, div_le_iff₀ hvpos, sub_nonpos, mul_div_assoc]
  show W n ω - t * √S / V * v ≤ 0 ↔ ∃ s : ℝ, slopeOf ε (w n) (Z · ω) n = X.fin s ∧ √n * (s - β) ≤ t * (√S / V)
  rw [hslope, hiff]
  constructor
  · intro h
    exact ⟨_, rfl, h⟩
  · rintro ⟨s, h1, h2⟩
    rw [X.fin_inj] at h1
    rw [h1]; exact h2

end

section
variable {Z : ℕ → Ω → ℝ}

/-- The probability that the square of a scaled error is at most `q²` times an estimate of its variance. -/
theorem coverage_of {W V : ℕ → Ω → ℝ} {τ : ℝ} (hτ : 0 < τ)
    (h : TendstoInDistribution W atTop (fun x => √τ * x) (fun _ => P) (gaussianReal 0 1)) (hm : ∀ n, AEMeasurable (V n) P)
    (hl : ∀ᵐ ω ∂P, Tendsto (fun n => V n ω) atTop (𝓝 τ)) {q : ℝ} (hq : 0 ≤ q) :
    Tendsto (fun n : ℕ => P {ω | W n ω ^ 2 ≤ q ^ 2 * V n ω}) atTop (𝓝 (gaussianReal 0 1 (Set.Icc (-q) q))) := by
  have hin := tendstoInMeasure_of_tendsto_ae (fun n => (hm n).aestronglyMeasurable) hl
  have h := h.continuous_comp_prodMk_of_tendstoInMeasure_const (g := fun z : ℝ × ℝ => z.1 ^ 2 - q ^ 2 * z.2) (by fun_prop) hin hm
  have := nullSingletonClass_gaussianReal (μ := 0) (v := 1) one_ne_zero
  have e : ∀ x : ℝ, (√τ * x) ^ 2 - q ^ 2 * τ = τ * (x ^ 2 - q ^ 2) := by
    intro x; rw [mul_pow, Real.sq_sqrt hτ.le]; ring
  have key := prob_le_limit h (t := 0) ?_
  · simp only [e] at key
    have hs : {x : ℝ | τ * (x ^ 2 - q ^ 2) ≤ 0} = Set.Icc (-q) q := by
      ext x
      rw [Set.mem_ofPred_eq, Set.mem_Icc, ← abs_le, ← sq_le_sq₀ (abs_nonneg x) hq, sq_abs]
      constructor
      · intro h
        by_contra hc
        have := mul_pos hτ (sub_pos.2 (not_le.1 hc))
        linarith
      · intro h
        exact mul_nonpos_of_nonneg_of_nonpos hτ.le (sub_nonpos.2 h)
    rw [hs] at key
    simpa only [sub_nonpos] using key
  · refine measure_mono_null (t := {q, -q}) ?_ ((Set.toFinite _).measure_zero _)
    intro x hx
    have hx : (√τ * x) ^ 2 - q ^ 2 * τ = 0 := hx
    rw [e] at hx
    have := (mul_eq_zero.1 hx).resolve_left hτ.ne'
    rcases sq_eq_sq_iff_eq_or_eq_neg.1 (sub_eq_zero.1 this) with h | h <;> simp [h]

/-- The results of the kurtosis filter for the first `n` values. -/
noncomputable def kurtosisOf (ε : ℝ) (w : ℕ) (x : ℕ → ℝ) (n : ℕ) : Kurtosis w (E ε) := Kurtosis.run (finOps (pushFirst x n))

/-- C173: the interval `variance() ± q variance() sqrt((kurtosis() - 1) / n)` contains the variance of the distribution with a probability that
tends to the probability that a standard normal value lies in `[-q, q]`. -/
theorem C173_variance_interval (hε : 0 < ε) (hZ : Sample Z P) (h4 : MemLp (Z 0) 4 P)
    (hV : Var[fun ω => (Z 0 ω - ∫ ω, Z 0 ω ∂P) ^ 2; P] ≠ 0) {w : ℕ → ℕ} (hw : ∀ n, n ^ 2 < 2 ^ w n) {q : ℝ} (hq : 0 ≤ q) :
    Tendsto (fun n : ℕ => P {ω | ∃ v k : ℝ, (kurtosisOf ε (w n) (Z · ω) n).variance = X.fin v
        ∧ (kurtosisOf ε (w n) (Z · ω) n).kurtosis = X.fin k ∧ |v - Var[Z 0; P]| ≤ q * (v * √((k - 1) / n))}) atTop
      (𝓝 (gaussianReal 0 1 (Set.Icc (-q) q))) := by
  set μ := ∫ ω, Z 0 ω ∂P with hμ
  have h2 : MemLp (Z 0) 2 P := h4.mono_exponent (by norm_num)
  have h3 : MemLp (Z 0) 3 P := h4.mono_exponent (by norm_num)
  have hVar := variance_eq_integral h2.1.aemeasurable
  have hsq : MemLp (fun ω => (Z 0 ω - μ) ^ 2) 2 P := by
    refine (memLp_two_iff_integrable_sq ((h4.sub (memLp_const μ)).1.pow 2)).2 ?_
    refine (integrable_dev (k := 4) h4 μ).congr (Eventually.of_forall fun ω => ?_)
    show (Z 0 ω - μ) ^ 4 = ((Z 0 ω - μ) ^ 2) ^ 2
    ring
  have hV0 : Var[Z 0; P] ≠ 0 := by
    intro h0
    apply hV
    have hc : (fun ω => (Z 0 ω - μ) ^ 2) =ᵐ[P] fun _ => (0 : ℝ) := by
      filter_upwards [ae_eq_integral_of_variance_eq_zero h2 h0] with ω h
      rw [h]; simp [hμ]
    rw [variance_congr hc]
    exact variance_zero P
  set μ4 := ∫ ω, (Z 0 ω - μ) ^ 4 ∂P with hμ4
  have e4 : Var[fun ω => (Z 0 ω - μ) ^ 2; P] = μ4 - Var[Z 0; P] ^ 2 := by
    rw [variance_eq_sub hsq, hVar]
    congr 1
    refine integral_congr_ae (Eventually.of_forall fun ω => ?_)
    show ((Z 0 ω - μ) ^ 2) ^ 2 = (Z 0 ω - μ) ^ 4
    ring
  have hτ : 0 < Var[fun ω => (Z 0 ω - μ) ^ 2; P] := lt_of_le_of_ne (ProbabilityTheory.variance_nonneg _ _) hV.symm
  have hpos : 0 < μ4 := fourth_pos h4 hV0
  -- the variance is the covariance of the value with itself
  have hp : devProduct (fun ω => (Z 0 ω, Z 0 ω)) P = fun ω => (Z 0 ω - μ) ^ 2 := by
    funext ω
    show (Z 0 ω - μ) * (Z 0 ω - μ) = _
    ring
  obtain ⟨W, hW, e⟩ := clt_cov (hZ.map (g := fun x : ℝ => (x, x)) (by fun_prop)) h2 h2 (by simpa only [hp] using hsq)
  rw [hp] at hW
  have hW' : ∀ n : ℕ, 1 ≤ n → ∀ ω, W n ω = √n * (Spec.variance (firstN (Z · ω) n) - Var[Z 0; P]) := by
    intro n hn ω
    rw [e n hn ω, covariance_self h2.1.aemeasurable]
    have : firstN (fun i => (Z i ω, Z i ω)) n = (firstN (Z · ω) n).map fun x => (x, x) := by simp [firstN, Function.comp_def]
    rw [this, Spec.covariance, Spec.cosum_diag, List.length_map]
    rfl
  have hm4 : ∀ n : ℕ, AEMeasurable (fun ω => Spec.central 4 (firstN (Z · ω) n) / n) P := by
    intro n
    rcases Nat.eq_zero_or_pos n with rfl | hn
    · simp
    · simp only [fun ω => central_four_avg (Z · ω) 0 (n := n) (by omega)]
      have m := fun k => measurable_avg hZ k 0 n
      exact (((m 4).sub (((m 1).const_mul 4).mul (m 3))).add ((((m 1).pow_const 2).const_mul 6).mul (m 2))).sub
        (((m 1).pow_const 4).const_mul 3)
  have hl4 : ∀ᵐ ω ∂P, Tendsto (fun n : ℕ => Spec.central 4 (firstN (Z · ω) n) / n) atTop (𝓝 μ4) := by
    filter_upwards [avg_one hZ.iid (h2.integrable (by norm_num)), avg_law hZ.iid 2 _ (integrable_dev (k := 2) h2 μ),
      avg_law hZ.iid 3 _ (integrable_dev (k := 3) h3 μ), avg_law hZ.iid 4 _ (integrable_dev (k := 4) h4 μ)] with ω a1 a2 a3 a4
    exact fourth_limit a1 a2 a3 a4
  have key := coverage_of (q := q) hτ hW (V := fun n ω => Spec.central 4 (firstN (Z · ω) n) / n - Spec.variance (firstN (Z · ω) n) ^ 2)
    (fun n => (hm4 n).sub ((measurable_variance hZ n).pow_const 2)) (by
      filter_upwards [hl4, variance_ae hZ h2] with ω a b
      rw [e4]; exact a.sub (b.pow 2)) hq
  have hin := tendstoInMeasure_of_tendsto_ae (fun n => (hm4 n).aestronglyMeasurable) hl4
  rw [tendstoInMeasure_iff_norm] at hin
  refine prob_congr (measure_ne_top _ _) key (hin (μ4 / 2) (by linarith)) ?_
  have e2 : ∀ᶠ n : ℕ in atTop, ε / (μ4 / 2) ≤ (n : ℝ) := tendsto_natCast_atTop_atTop.eventually_ge_atTop _
  filter_upwards [eventually_ge_atTop 1, e2] with n hn he ω hω
  have hω : ¬ μ4 / 2 ≤ ‖Spec.central 4 (firstN (Z · ω) n) / n - μ4‖ := hω
  rw [not_le, Real.norm_eq_abs, abs_lt] at hω
  have hn0 : (0 : ℝ) < n := by exact_mod_cast hn
  have hs := sinceClear_pushFirst (Z · ω) n
  have hlen : (sinceClear (pushFirst (Z · ω) n)).length < 2 ^ w n := by
    rw [hs, firstN_length]; exact lt_of_le_of_lt (Nat.le_self_pow (by norm_num) n) (hw n)
  have hc4 : ε ≤ Spec.central 4 (firstN (Z · ω) n) := by
    have h1 : μ4 / 2 < Spec.central 4 (firstN (Z · ω) n) / n := by linarith
    rw [lt_div_iff₀ hn0] at h1
    rw [div_le_iff₀ (by linarith)] at he
    linarith
  obtain ⟨hk, hk1⟩ := (C04_kurtosis (w := w n) hε (pushFirst (Z · ω) n) (by rw [hs, firstN_length, ← pow_two]; exact hw n)).2
    (by rw [hs]; exact hc4)
  rw [hs] at hk hk1
  have hv : (kurtosisOf ε (w n) (Z · ω) n).variance = X.fin (Spec.variance (firstN (Z · ω) n)) := by
    rw [kurtosisOf, ((C02_variance_inherited _).1).2]
    exact resultOf_variance hn (lt_of_le_of_lt (Nat.le_self_pow (by norm_num) n) (hw n)) _
  set v := Spec.variance (firstN (Z · ω) n) with hvdef
  have hvn : 0 ≤ v := Props.variance_nonneg _
  have hv0 : v ≠ 0 := by
    intro h0
    have : Spec.kurtosis (firstN (Z · ω) n) = 0 := by
      rw [Spec.kurtosis, ← hvdef, h0]; simp
    rw [this] at hk1
    linarith
  have hk' : v ^ 2 * (Spec.kurtosis (firstN (Z · ω) n) - 1) = Spec.central 4 (firstN (Z · ω) n) / n - v ^ 2 := by
    rw [Spec.kurtosis, ← hvdef, firstN_length]
    field_simp
  have hiff : W n ω ^ 2 ≤ q ^ 2 * (Spec.central 4 (firstN (Z · ω) n) / n - v ^ 2)
      ↔ |v - Var[Z 0; P]| ≤ q * (v * √((Spec.kurtosis (firstN (Z · ω) n) - 1) / n)) := by
    have h1 := within_iff hn (d := v - Var[Z 0; P]) (q := q * v) (v := Spec.kurtosis (firstN (Z · ω) n) - 1) (mul_nonneg hq hvn) (by linarith)
    rw [hW' n hn, ← hk', ← mul_assoc q, h1, mul_pow q v, mul_assoc]
  show W n ω ^ 2 ≤ q ^ 2 * (Spec.central 4 (firstN (Z · ω) n) / n - v ^ 2) ↔ ∃ v k : ℝ, (kurtosisOf ε (w n) (Z · ω) n).variance = X.fin v
        ∧ (kurtosisOf ε (w n) (Z · ω) n).kurtosis = X.fin k ∧ |v - Var[Z 0; P]| ≤ q * (v * √((k - 1) / n))
  rw [hiff, hv, show (kurtosisOf ε (w n) (Z · ω) n).kurtosis = _ from hk]
  constructor
  · intro h
    exact ⟨_, _, rfl, rfl, h⟩
  · rintro ⟨v', k, h1, h2, h3⟩
    rw [X.fin_inj] at h1 h2
    rw [h1, h2]; exact h3

end

/-! ### Non-vacuity -/

/-- Throws of a coin with the sides 1 (probability 1/4) and 5: the interval around the variance contains 3. -/
example (hε : 0 < ε) : ∃ P : Measure (ℕ → ℝ), IsProbabilityMeasure P ∧
    Tendsto (fun n : ℕ => P {ω | ∃ v k : ℝ, (kurtosisOf ε (2 * n) ω n).variance = X.fin v ∧ (kurtosisOf ε (2 * n) ω n).kurtosis = X.fin k
      ∧ |v - 3| ≤ 2 * (v * √((k - 1) / n))}) atTop (𝓝 (gaussianReal 0 1 (Set.Icc (-2) 2))) := by
  have h0 : (0 : ℝ) ≤ 1 / 4 := by norm_num
  have h1 : (1 / 4 : ℝ) ≤ 1 := by norm_num
  have hp := coin_prob (a := (1 : ℝ)) (b := 5) h0 h1
  have hm := coin_moments (a := 1) (b := 5) h0 h1 2
  have h4 := eval_memLp (coin (1 / 4) (1 : ℝ) 5) (coin_memLp h0 h1 measurable_id' 4)
  have hmean : ∫ ω : ℕ → ℝ, ω 0 ∂(Measure.infinitePi fun _ : ℕ => coin (1 / 4) (1 : ℝ) 5) = 4 := by rw [hm.1]; norm_num
  have hvar : Var[fun ω : ℕ → ℝ => ω 0; Measure.infinitePi fun _ : ℕ => coin (1 / 4) (1 : ℝ) 5] = 3 := by
    rw [variance_eq_integral h4.1.aemeasurable]
    refine hm.2.trans ?_
    norm_num
  refine ⟨Measure.infinitePi fun _ : ℕ => coin (1 / 4) (1 : ℝ) 5, inferInstance, ?_⟩
  have := C173_variance_interval (ε := ε) hε (normal_sample_eval (coin (1 / 4) (1 : ℝ) 5)) h4 ?_ (w := fun n => 2 * n)
    (fun n => by rw [mul_comm, pow_mul]; exact Nat.pow_lt_pow_left Nat.lt_two_pow_self (by norm_num)) (q := 2) (by norm_num)
  · rw [hvar] at this
    exact this
  · rw [hmean, variance_eq_integral ((((measurable_pi_apply 0).sub_const 4).pow_const 2).aemeasurable)]
    rw [eval_integral (coin (1 / 4) (1 : ℝ) 5) (g := fun x => (x - 4) ^ 2) (by fun_prop),
      eval_integral (coin (1 / 4) (1 : ℝ) 5) (g := fun x => ((x - 4) ^ 2 - ∫ x, (x - 4) ^ 2 ∂(coin (1 / 4) (1 : ℝ) 5)) ^ 2) (by fun_prop),
      coin_integral h0 h1, coin_integral h0 h1]
    norm_num

/-- The points `(-1, -1)`, `(-1, 1)`, `(1, 1)` and `(1, 3)`, each with probability 1/4: the line `y = 1 + x`, plus or minus one. -/
noncomputable def fourPoints : Measure (ℝ × ℝ) :=
  ENNReal.ofReal (1 / 2) • coin (1 / 2) ((-1 : ℝ), (-1 : ℝ)) (-1, 1) + ENNReal.ofReal (1 / 2) • coin (1 / 2) ((1 : ℝ), (1 : ℝ)) (1, 3)

theorem fourPoints_integral (g : ℝ × ℝ → ℝ) : ∫ z, g z ∂fourPoints = (g (-1, -1) + g (-1, 1) + g (1, 1) + g (1, 3)) / 4 := by
  have h0 : (0 : ℝ) ≤ 1 / 2 := by norm_num
  have h1 : (1 / 2 : ℝ) ≤ 1 := by norm_num
  rw [fourPoints, integral_add_measure ((coin_integrable g).smul_measure ENNReal.ofReal_ne_top)
    ((coin_integrable g).smul_measure ENNReal.ofReal_ne_top), integral_smul_measure, integral_smul_measure, coin_integral h0 h1,
    coin_integral h0 h1, ENNReal.toReal_ofReal h0, smul_eq_mul, smul_eq_mul]
  ring

instance fourPoints_prob : IsProbabilityMeasure fourPoints := by
  have h0 : (0 : ℝ) ≤ 1 / 2 := by norm_num
  have h1 : (1 / 2 : ℝ) ≤ 1 := by norm_num
  have p1 := coin_prob (a := ((-1 : ℝ), (-1 : ℝ))) (b := (-1, 1)) h0 h1
  have p2 := coin_prob (a := ((1 : ℝ), (1 : ℝ))) (b := (1, 3)) h0 h1
  constructor
  rw [fourPoints, Measure.add_apply, Measure.smul_apply, Measure.smul_apply, measure_univ, measure_univ, smul_eq_mul, mul_one,
    ← ENNReal.ofReal_add h0 h0]
  norm_num

theorem fourPoints_memLp {g : ℝ × ℝ → ℝ} (hg : Measurable g) : MemLp g 2 fourPoints := by
  rw [memLp_two_iff_integrable_sq hg.aestronglyMeasurable]
  exact ((coin_integrable _).smul_measure ENNReal.ofReal_ne_top).add_measure ((coin_integrable _).smul_measure ENNReal.ofReal_ne_top)

/-- For these points `√n (slope() - 1)` tends to the standard normal distribution, and `√n (covariance - 1)` too. -/
example (t : ℝ) : ∃ P : Measure (ℕ → ℝ × ℝ), IsProbabilityMeasure P
    ∧ Tendsto (fun n : ℕ => P {ω | ∃ s : ℝ, slopeOf ε n ω n = X.fin s ∧ √n * (s - 1) ≤ t}) atTop (𝓝 (gaussianReal 0 1 (Set.Iic t)))
    ∧ Tendsto (fun n : ℕ => P {ω | ∃ c : ℝ, covarianceOf ε n ω n = X.fin c ∧ √n * (c - 1) ≤ t}) atTop (𝓝 (gaussianReal 0 1 (Set.Iic t))) := by
  set P := Measure.infinitePi fun _ : ℕ => fourPoints with hP
  have hx : MemLp (fun ω : ℕ → ℝ × ℝ => (ω 0).1) 2 P := eval_memLp fourPoints (fourPoints_memLp measurable_fst)
  have hy : MemLp (fun ω : ℕ → ℝ × ℝ => (ω 0).2) 2 P := eval_memLp fourPoints (fourPoints_memLp measurable_snd)
  have ex : ∫ ω : ℕ → ℝ × ℝ, (ω 0).1 ∂P = 0 := by
    rw [hP, eval_integral fourPoints measurable_fst, fourPoints_integral]; norm_num
  have ey : ∫ ω : ℕ → ℝ × ℝ, (ω 0).2 ∂P = 1 := by
    rw [hP, eval_integral fourPoints measurable_snd, fourPoints_integral]; norm_num
  have hV : Var[fun ω : ℕ → ℝ × ℝ => (ω 0).1; P] = 1 := by
    rw [variance_eq_integral hx.1.aemeasurable, ex, hP, eval_integral fourPoints (g := fun z => (z.1 - 0) ^ 2) (by fun_prop), fourPoints_integral]
    norm_num
  have hc : cov[fun ω : ℕ → ℝ × ℝ => (ω 0).1, fun ω : ℕ → ℝ × ℝ => (ω 0).2; P] = 1 := by
    rw [covariance, ex, ey, hP, eval_integral fourPoints (g := fun z => (z.1 - 0) * (z.2 - 1)) (by fun_prop), fourPoints_integral]
    norm_num
  have hb : trueSlope (fun ω : ℕ → ℝ × ℝ => ω 0) P = 1 := by rw [trueSlope, hc, hV]; norm_num
  have hr : residualProduct (fun ω : ℕ → ℝ × ℝ => ω 0) P = fun ω => (fun z : ℝ × ℝ => z.1 * (z.2 - 1 - z.1)) (ω 0) := by
    funext ω
    simp only [residualProduct, hb, ex, ey]
    ring
  have hd : devProduct (fun ω : ℕ → ℝ × ℝ => ω 0) P = fun ω => (fun z : ℝ × ℝ => z.1 * (z.2 - 1)) (ω 0) := by
    funext ω
    simp only [devProduct, ex, ey]
    ring
  have mr : MemLp (residualProduct (fun ω : ℕ → ℝ × ℝ => ω 0) P) 2 P := by
    rw [hr]; exact eval_memLp fourPoints (g := fun z : ℝ × ℝ => z.1 * (z.2 - 1 - z.1)) (fourPoints_memLp (by fun_prop))
  have md : MemLp (devProduct (fun ω : ℕ → ℝ × ℝ => ω 0) P) 2 P := by
    rw [hd]; exact eval_memLp fourPoints (g := fun z : ℝ × ℝ => z.1 * (z.2 - 1)) (fourPoints_memLp (by fun_prop))
  have hS : ∫ ω, residualProduct (fun ω : ℕ → ℝ × ℝ => ω 0) P ω ^ 2 ∂P = 1 := by
    rw [hr, hP, eval_integral fourPoints (g := fun z : ℝ × ℝ => (z.1 * (z.2 - 1 - z.1)) ^ 2) (by fun_prop), fourPoints_integral]
    norm_num
  have hD : Var[devProduct (fun ω : ℕ → ℝ × ℝ => ω 0) P; P] = 1 := by
    rw [variance_eq_sub md]
    have e1 : ∫ ω, devProduct (fun ω : ℕ → ℝ × ℝ => ω 0) P ω ∂P = 1 := by
      rw [hd, hP, eval_integral fourPoints (g := fun z : ℝ × ℝ => z.1 * (z.2 - 1)) (by fun_prop), fourPoints_integral]; norm_num
    have e2 : ∫ ω, (devProduct (fun ω : ℕ → ℝ × ℝ => ω 0) P ^ 2) ω ∂P = 2 := by
      have h := eval_integral fourPoints (g := fun z : ℝ × ℝ => (z.1 * (z.2 - 1)) ^ 2) (by fun_prop)
      rw [fourPoints_integral] at h
      norm_num at h
      rw [hd, hP]
      exact h
    rw [e1, e2]; norm_num
  have hs : Sample (fun i (ω : ℕ → ℝ × ℝ) => ω i) P := normal_sample_eval fourPoints
  refine ⟨P, inferInstance, ?_, ?_⟩
  · have := C173_slope (ε := ε) hs hx hy mr (by rw [hV]; norm_num) (by rw [hS]; norm_num) (w := fun n => n) (fun n => Nat.lt_two_pow_self) t
    rw [hb, hS, hV] at this
    simpa using this
  · have := C173_covariance (ε := ε) hs hx hy md (by rw [hD]; norm_num) (w := fun n => n) (fun n => Nat.lt_two_pow_self) t
    rw [hD, hc] at this
    simpa using this

end Verif.Props
