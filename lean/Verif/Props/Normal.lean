import Verif.Props.Consistency
import Mathlib.Probability.CentralLimitTheorem
/-
C170: for many independent data the mean and the variance are normally distributed, and the interval around the mean computed from
the filter's own variance contains the expectation with the intended probability.
-/
namespace Verif.Props
open Filter Topology MeasureTheory ProbabilityTheory Verif.Stochastic Exact Cumulative
open scoped ENNReal

variable {ε : ℝ} {Ω : Type} {mΩ : MeasurableSpace Ω} {P : Measure Ω} [IsProbabilityMeasure P]

/-- Independent values (not only in pairs) with the same distribution. -/
structure Sample {β : Type} [MeasurableSpace β] (Z : ℕ → Ω → β) (P : Measure Ω) : Prop where
  indep : iIndepFun Z P
  ident : ∀ i, IdentDistrib (Z i) (Z 0) P P

omit [IsProbabilityMeasure P] in
theorem Sample.iid {β : Type} [MeasurableSpace β] {Z : ℕ → Ω → β} (h : Sample Z P) : IID Z P :=
  ⟨fun _ _ hij => h.indep.indepFun hij, h.ident⟩

/-- A probability of the form `P(W_n ≤ t)` converges to that of the limit, if the limit has a continuous distribution. -/
theorem prob_le_limit {W : ℕ → Ω → ℝ} {Ω' : Type} {mΩ' : MeasurableSpace Ω'} {P' : Measure Ω'} [IsProbabilityMeasure P'] {Y : Ω' → ℝ}
    (h : TendstoInDistribution W atTop Y (fun _ => P) P') {t : ℝ} (h0 : P' {ω | Y ω = t} = 0) :
    Tendsto (fun n => P {ω | W n ω ≤ t}) atTop (𝓝 (P' {ω | Y ω ≤ t})) := by
  have hm : ∀ n, P.map (W n) (Set.Iic t) = P {ω | W n ω ≤ t} := fun n =>
    Measure.map_apply_of_aemeasurable (h.forall_aemeasurable n) measurableSet_Iic
  have hm' : P'.map Y (Set.Iic t) = P' {ω | Y ω ≤ t} := Measure.map_apply_of_aemeasurable h.aemeasurable_limit measurableSet_Iic
  have hf : P'.map Y (frontier (Set.Iic t)) = 0 := by
    rw [frontier_Iic, Measure.map_apply_of_aemeasurable h.aemeasurable_limit (measurableSet_singleton t)]
    exact h0
  have := ProbabilityMeasure.tendsto_measure_of_null_frontier_of_tendsto' h.tendsto (E := Set.Iic t) hf
  rw [← hm']
  exact this.congr hm

section
variable {Z : ℕ → Ω → ℝ}

/-- The central limit theorem for the mean of the first `n` values. -/
theorem clt_mean (hZ : Sample Z P) (h2 : MemLp (Z 0) 2 P) :
    TendstoInDistribution (fun (n : ℕ) ω => √n * (Spec.mean (firstN (Z · ω) n) - ∫ ω, Z 0 ω ∂P)) atTop
      (fun x => √Var[Z 0; P] * x) (fun _ => P) (gaussianReal 0 1) := by
  have hY : HasLaw (fun x => √Var[Z 0; P] * x) (gaussianReal 0 Var[Z 0; P].toNNReal) (gaussianReal 0 1) := by
    refine ⟨by fun_prop, ?_⟩
    rw [gaussianReal_map_const_mul, mul_zero, mul_one]
    congr 1
    ext
    rw [NNReal.coe_mk, Real.sq_sqrt (ProbabilityTheory.variance_nonneg _ _), Real.coe_toNNReal _ (ProbabilityTheory.variance_nonneg _ _)]
  have h := tendstoInDistribution_inv_sqrt_mul_sum_sub hY h2 hZ.indep hZ.ident
  have e : ∀ (n : ℕ) ω, √n * (Spec.mean (firstN (Z · ω) n) - ∫ ω, Z 0 ω ∂P)
      = (√n)⁻¹ * (∑ k ∈ Finset.range n, Z k ω - n * ∫ ω, Z 0 ω ∂P) := by
    intro n ω
    rcases Nat.eq_zero_or_pos n with rfl | hn
    · simp
    have h0 : (0 : ℝ) < n := by exact_mod_cast hn
    have hs : √(n : ℝ) ≠ 0 := (Real.sqrt_pos.2 h0).ne'
    have hq : √(n : ℝ) * √(n : ℝ) = n := Real.mul_self_sqrt h0.le
    rw [mean_firstN, eq_inv_mul_iff_mul_eq₀ hs, ← mul_assoc, hq]
    field_simp
  simp only [e]
  exact h

omit [IsProbabilityMeasure P] in
theorem measurable_mean (hZ : Sample Z P) (n : ℕ) : AEMeasurable (fun ω => Spec.mean (firstN (Z · ω) n)) P := by
  simp only [mean_firstN]
  exact (Finset.aemeasurable_fun_sum _ fun i _ => (hZ.ident i).aemeasurable_fst).div_const _

omit [IsProbabilityMeasure P] in
theorem measurable_avg (hZ : Sample Z P) (k : ℕ) (c : ℝ) (n : ℕ) : AEMeasurable (fun ω => avg (Z · ω) k c n) P := by
  unfold avg
  exact (Finset.aemeasurable_fun_sum _ fun i _ => ((hZ.ident i).aemeasurable_fst.sub_const c).pow_const k).div_const _

omit [IsProbabilityMeasure P] in
theorem measurable_variance (hZ : Sample Z P) (n : ℕ) : AEMeasurable (fun ω => Spec.variance (firstN (Z · ω) n)) P := by
  rcases Nat.eq_zero_or_pos n with rfl | hn
  · simp [Spec.variance, firstN]
  · simp only [Spec.variance, firstN_length, fun ω => central_two_avg (Z · ω) 0 (n := n) (by omega)]
    exact (measurable_avg hZ 2 0 n).sub ((measurable_avg hZ 1 0 n).pow_const 2)

/-- The probability that the square of the scaled deviation is at most `q²` times an estimate of the variance. -/
theorem coverage (hZ : Sample Z P) (h2 : MemLp (Z 0) 2 P) (hV : Var[Z 0; P] ≠ 0) {V : ℕ → Ω → ℝ} (hm : ∀ n, AEMeasurable (V n) P)
    (hl : ∀ᵐ ω ∂P, Tendsto (fun n => V n ω) atTop (𝓝 Var[Z 0; P])) {q : ℝ} (hq : 0 ≤ q) :
    Tendsto (fun n : ℕ => P {ω | (√n * (Spec.mean (firstN (Z · ω) n) - ∫ ω, Z 0 ω ∂P)) ^ 2 ≤ q ^ 2 * V n ω}) atTop
      (𝓝 (gaussianReal 0 1 (Set.Icc (-q) q))) := by
  have hV0 : 0 < Var[Z 0; P] := lt_of_le_of_ne (ProbabilityTheory.variance_nonneg _ _) hV.symm
  have hin := tendstoInMeasure_of_tendsto_ae (fun n => (hm n).aestronglyMeasurable) hl
  have h := (clt_mean hZ h2).continuous_comp_prodMk_of_tendstoInMeasure_const (g := fun z : ℝ × ℝ => z.1 ^ 2 - q ^ 2 * z.2) (by fun_prop)
    hin hm
  have := nullSingletonClass_gaussianReal (μ := 0) (v := 1) one_ne_zero
  have e : ∀ x : ℝ, (√Var[Z 0; P] * x) ^ 2 - q ^ 2 * Var[Z 0; P] = Var[Z 0; P] * (x ^ 2 - q ^ 2) := by
    intro x; rw [mul_pow, Real.sq_sqrt hV0.le]; ring
  have key := prob_le_limit h (t := 0) ?_
  · simp only [e] at key
    have hs : {x : ℝ | Var[Z 0; P] * (x ^ 2 - q ^ 2) ≤ 0} = Set.Icc (-q) q := by
      ext x
      rw [Set.mem_ofPred_eq, Set.mem_Icc, ← abs_le, ← sq_le_sq₀ (abs_nonneg x) hq, sq_abs]
      constructor
      · intro h
        by_contra hc
        have := mul_pos hV0 (sub_pos.2 (not_le.1 hc))
        linarith
      · intro h
        exact mul_nonpos_of_nonneg_of_nonpos hV0.le (sub_nonpos.2 h)
    rw [hs] at key
    simpa only [sub_nonpos] using key
  · refine measure_mono_null (t := {q, -q}) ?_ ((Set.toFinite _).measure_zero _)
    intro x hx
    have hx : (√Var[Z 0; P] * x) ^ 2 - q ^ 2 * Var[Z 0; P] = 0 := hx
    rw [e] at hx
    have := (mul_eq_zero.1 hx).resolve_left hV
    rcases sq_eq_sq_iff_eq_or_eq_neg.1 (sub_eq_zero.1 this) with h | h <;> simp [h]

/-- The results of the filter for the first `n` values. -/
noncomputable def resultOf (ε : ℝ) (w : ℕ) (x : ℕ → ℝ) (n : ℕ) : Variance w (E ε) := Variance.run (finOps (pushFirst x n))

theorem resultOf_mean {w n : ℕ} (hw : n < 2 ^ w) (x : ℕ → ℝ) : (resultOf ε w x n).getMean = X.fin (Spec.mean (firstN x n)) := by
  have hs := sinceClear_pushFirst x n
  rw [resultOf, ((C01_mean_inherited _).1).1, (C01_mean _ (by rw [hs, firstN_length]; exact hw)).1, hs]

theorem resultOf_variance {w n : ℕ} (hn : 1 ≤ n) (hw : n < 2 ^ w) (x : ℕ → ℝ) :
    (resultOf ε w x n).variance = X.fin (Spec.variance (firstN x n)) := by
  have hs := sinceClear_pushFirst x n
  rw [resultOf, ((C02_variance _ (by rw [hs, firstN_length]; exact hw)).1 (by rw [hs, firstN_length]; exact hn)).1, hs]

theorem resultOf_unbiased {w n : ℕ} (hn : 2 ≤ n) (hw : n < 2 ^ w) (x : ℕ → ℝ) :
    (resultOf ε w x n).unbiasedVariance = X.fin (Spec.variance (firstN x n) * (n / (n - 1))) := by
  have hs := sinceClear_pushFirst x n
  have hn' : (n : ℝ) ≠ 0 := by positivity
  rw [resultOf, ((C02_variance _ (by rw [hs, firstN_length]; exact hw)).2 (by rw [hs, firstN_length]; exact hn)).1, hs, Spec.sampleVariance,
    Spec.variance, firstN_length]
  congr 1
  field_simp

theorem variance_ae (hZ : Sample Z P) (h2 : MemLp (Z 0) 2 P) :
    ∀ᵐ ω ∂P, Tendsto (fun n => Spec.variance (firstN (Z · ω) n)) atTop (𝓝 Var[Z 0; P]) := by
  have hV := variance_eq_integral h2.1.aemeasurable
  filter_upwards [avg_one hZ.iid (h2.integrable (by norm_num)), avg_law hZ.iid 2 _ (integrable_dev (k := 2) h2 (∫ ω, Z 0 ω ∂P))]
    with ω h1' h2'
  rw [← hV] at h2'
  exact variance_limit h1' h2'

/-- `n / (n - 1)` tends to 1. -/
theorem tendsto_bessel : Tendsto (fun n : ℕ => (n : ℝ) / (n - 1)) atTop (𝓝 1) := by
  have h := tendsto_one_div_add_atTop_nhds_zero_nat (𝕜 := ℝ)
  have h' : Tendsto (fun n : ℕ => 1 + 1 / ((n : ℝ) - 1)) atTop (𝓝 (1 + 0)) := by
    refine Tendsto.const_add 1 ?_
    rw [← tendsto_add_atTop_iff_nat 2]
    refine h.congr fun n => ?_
    push_cast; ring_nf
  rw [add_zero] at h'
  refine h'.congr' ?_
  filter_upwards [eventually_ge_atTop 2] with n hn
  have : (n : ℝ) - 1 ≠ 0 := by
    have : (2 : ℝ) ≤ n := by exact_mod_cast hn
    linarith
  field_simp; ring

/-- The deviation compared with the standard error. -/
theorem within_iff {n : ℕ} (hn : 1 ≤ n) {d q v : ℝ} (hq : 0 ≤ q) (hv : 0 ≤ v) : |d| ≤ q * √(v / n) ↔ (√n * d) ^ 2 ≤ q ^ 2 * v := by
  have h0 : (0 : ℝ) < n := by exact_mod_cast hn
  rw [← sq_le_sq₀ (abs_nonneg d) (by positivity), sq_abs, mul_pow, Real.sq_sqrt (by positivity), mul_pow, Real.sq_sqrt h0.le,
    mul_div_assoc', le_div_iff₀ h0, mul_comm]

/-- C170: the interval `mean() ± q sqrt(variance() / n)` contains the expectation with a probability that tends to the probability that a
standard normal value lies in `[-q, q]`. The same with `unbiased_variance()`. -/
theorem C170_interval (hZ : Sample Z P) (h2 : MemLp (Z 0) 2 P) (hV : Var[Z 0; P] ≠ 0) {w : ℕ → ℕ} (hw : ∀ n, n < 2 ^ w n) {q : ℝ}
    (hq : 0 ≤ q) :
    Tendsto (fun n : ℕ => P {ω | ∃ m v : ℝ, (resultOf ε (w n) (Z · ω) n).getMean = X.fin m
        ∧ (resultOf ε (w n) (Z · ω) n).variance = X.fin v ∧ |m - ∫ ω, Z 0 ω ∂P| ≤ q * √(v / n)}) atTop
      (𝓝 (gaussianReal 0 1 (Set.Icc (-q) q)))
    ∧ Tendsto (fun n : ℕ => P {ω | ∃ m v : ℝ, (resultOf ε (w n) (Z · ω) n).getMean = X.fin m
        ∧ (resultOf ε (w n) (Z · ω) n).unbiasedVariance = X.fin v ∧ |m - ∫ ω, Z 0 ω ∂P| ≤ q * √(v / n)}) atTop
      (𝓝 (gaussianReal 0 1 (Set.Icc (-q) q))) := by
  constructor
  · refine (coverage hZ h2 hV (measurable_variance hZ) (variance_ae hZ h2) hq).congr' ?_
    filter_upwards [eventually_ge_atTop 1] with n hn
    congr 1
    ext ω
    rw [Set.mem_ofPred_eq, Set.mem_ofPred_eq, resultOf_mean (hw n), resultOf_variance hn (hw n),
      ← within_iff hn hq (Props.variance_nonneg _)]
    constructor
    · intro h
      exact ⟨_, _, rfl, rfl, h⟩
    · rintro ⟨m, v, h1, h2, h3⟩
      rw [X.fin_inj] at h1 h2
      rw [h1, h2]; exact h3
  · refine (coverage hZ h2 hV (V := fun n ω => Spec.variance (firstN (Z · ω) n) * ((n : ℝ) / (n - 1)))
      (fun n => (measurable_variance hZ n).mul_const _) ?_ hq).congr' ?_
    · filter_upwards [variance_ae hZ h2] with ω h
      simpa using h.mul tendsto_bessel
    · filter_upwards [eventually_ge_atTop 2] with n hn
      congr 1
      ext ω
      have h1n : (0 : ℝ) ≤ (n : ℝ) - 1 := by
        have : (2 : ℝ) ≤ n := by exact_mod_cast hn
        linarith
      rw [Set.mem_ofPred_eq, Set.mem_ofPred_eq, resultOf_mean (hw n), resultOf_unbiased hn (hw n),
        ← within_iff (show 1 ≤ n by omega) hq (mul_nonneg (Props.variance_nonneg _) (div_nonneg (Nat.cast_nonneg n) h1n))]
      constructor
      · intro h
        exact ⟨_, _, rfl, rfl, h⟩
      · rintro ⟨m, v, h1, h2, h3⟩
        rw [X.fin_inj] at h1 h2
        rw [h1, h2]; exact h3

/-- A limit `s N` with a standard normal `N` and `s > 0`. -/
theorem normal_limit {W : ℕ → Ω → ℝ} {s : ℝ} (hs : 0 < s) (h : TendstoInDistribution W atTop (fun x => s * x) (fun _ => P) (gaussianReal 0 1))
    (t : ℝ) : Tendsto (fun n => P {ω | W n ω ≤ t * s}) atTop (𝓝 (gaussianReal 0 1 (Set.Iic t))) := by
  have := nullSingletonClass_gaussianReal (μ := 0) (v := 1) one_ne_zero
  have key := prob_le_limit h (t := t * s) ?_
  · have hset : {x : ℝ | s * x ≤ t * s} = Set.Iic t := by
      ext x
      rw [Set.mem_ofPred_eq, Set.mem_Iic, mul_comm, mul_le_mul_iff_left₀ hs]
    rwa [hset] at key
  · refine measure_mono_null (t := {t}) ?_ ((Set.toFinite _).measure_zero _)
    intro x hx
    have hx : s * x = t * s := hx
    rw [mul_comm] at hx
    exact mul_right_cancel₀ hs.ne' hx

/-- C170: the mean is normally distributed in the limit. -/
theorem C170_mean (hZ : Sample Z P) (h2 : MemLp (Z 0) 2 P) (hV : Var[Z 0; P] ≠ 0) {w : ℕ → ℕ} (hw : ∀ n, n < 2 ^ w n) (t : ℝ) :
    Tendsto (fun n : ℕ => P {ω | ∃ m : ℝ, (resultOf ε (w n) (Z · ω) n).getMean = X.fin m
        ∧ √n * (m - ∫ ω, Z 0 ω ∂P) ≤ t * √Var[Z 0; P]}) atTop (𝓝 (gaussianReal 0 1 (Set.Iic t))) := by
  have hV0 : 0 < Var[Z 0; P] := lt_of_le_of_ne (ProbabilityTheory.variance_nonneg _ _) hV.symm
  refine (normal_limit (Real.sqrt_pos.2 hV0) (clt_mean hZ h2) t).congr fun n => ?_
  congr 1
  ext ω
  rw [Set.mem_ofPred_eq, Set.mem_ofPred_eq, resultOf_mean (hw n)]
  constructor
  · intro h
    exact ⟨_, rfl, h⟩
  · rintro ⟨m, h1, h2⟩
    rw [X.fin_inj] at h1
    rw [h1]; exact h2

omit [IsProbabilityMeasure P] in
/-- The squared deviations from the expectation. -/
theorem Sample.squares (hZ : Sample Z P) (c : ℝ) : Sample (fun i ω => (Z i ω - c) ^ 2) P :=
  ⟨hZ.indep.comp (fun _ x => (x - c) ^ 2) fun _ => by fun_prop, fun i => (hZ.ident i).comp (u := fun x => (x - c) ^ 2) (by fun_prop)⟩

/-- The square of the mean of the deviations vanishes faster than `1 / √n`. -/
theorem sq_mean_vanishes (hZ : Sample Z P) (h2 : MemLp (Z 0) 2 P) :
    TendstoInMeasure P (fun (n : ℕ) ω => -(√n * (Spec.mean (firstN (Z · ω) n) - ∫ ω, Z 0 ω ∂P) ^ 2)) atTop (fun _ => 0) := by
  set μ := ∫ ω, Z 0 ω ∂P with hμ
  have hmeas : ∀ n, AEMeasurable (fun ω => Spec.mean (firstN (Z · ω) n) - μ) P := fun n => (measurable_mean hZ n).sub_const μ
  have hae : ∀ᵐ ω ∂P, Tendsto (fun n => Spec.mean (firstN (Z · ω) n) - μ) atTop (𝓝 0) := by
    filter_upwards [law hZ.iid.indep hZ.iid.ident measurable_id (h2.integrable (by norm_num))] with ω h
    have := h.sub_const μ
    rw [show (∫ ω, id (Z 0 ω) ∂P) - μ = 0 from sub_self _] at this
    exact this.congr fun n => by rw [mean_firstN]; rfl
  have hd := (clt_mean hZ h2).continuous_comp_prodMk_of_tendstoInMeasure_const (g := fun z : ℝ × ℝ => -(z.1 * z.2)) (by fun_prop)
    (tendstoInMeasure_of_tendsto_ae (fun n => (hmeas n).aestronglyMeasurable) hae) hmeas
  rw [tendstoInMeasure_iff_norm]
  intro δ hδ
  have key := prob_le_limit hd (t := -δ) (by simp [hδ.ne'])
  have h0 : (gaussianReal 0 1 {x : ℝ | -(√Var[Z 0; P] * x * 0) ≤ -δ}) = 0 := by simp [not_le.2 hδ]
  rw [h0] at key
  refine key.congr fun n => ?_
  congr 1
  ext ω
  rw [Set.mem_ofPred_eq, Set.mem_ofPred_eq, sub_zero, norm_neg, Real.norm_eq_abs, abs_of_nonneg (by positivity), neg_le_neg_iff]
  rw [show √(n : ℝ) * (Spec.mean (firstN (Z · ω) n) - μ) * (Spec.mean (firstN (Z · ω) n) - μ)
    = √n * (Spec.mean (firstN (Z · ω) n) - μ) ^ 2 by ring]

/-- C170: the variance is normally distributed in the limit, with the variance `E (Z - m)^4 - s^2` of the squared deviations. -/
theorem C170_variance (hZ : Sample Z P) (h4 : MemLp (Z 0) 4 P)
    (hV : Var[fun ω => (Z 0 ω - ∫ ω, Z 0 ω ∂P) ^ 2; P] ≠ 0) {w : ℕ → ℕ} (hw : ∀ n, n < 2 ^ w n) (t : ℝ) :
    Tendsto (fun n : ℕ => P {ω | ∃ v : ℝ, (resultOf ε (w n) (Z · ω) n).variance = X.fin v
        ∧ √n * (v - Var[Z 0; P]) ≤ t * √((∫ ω, (Z 0 ω - ∫ ω, Z 0 ω ∂P) ^ 4 ∂P) - Var[Z 0; P] ^ 2)}) atTop
      (𝓝 (gaussianReal 0 1 (Set.Iic t))) := by
  set μ := ∫ ω, Z 0 ω ∂P with hμ
  have h2 : MemLp (Z 0) 2 P := h4.mono_exponent (by norm_num)
  have hd4 : MemLp (fun ω => Z 0 ω - μ) 4 P := h4.sub (memLp_const μ)
  have hsq : MemLp (fun ω => (Z 0 ω - μ) ^ 2) 2 P := by
    refine (memLp_two_iff_integrable_sq (hd4.1.pow 2)).2 ?_
    refine (integrable_dev (k := 4) h4 μ).congr (Eventually.of_forall fun ω => ?_)
    show (Z 0 ω - μ) ^ 4 = ((Z 0 ω - μ) ^ 2) ^ 2
    ring
  have hVar := variance_eq_integral h2.1.aemeasurable
  have e4 : Var[fun ω => (Z 0 ω - μ) ^ 2; P] = (∫ ω, (Z 0 ω - μ) ^ 4 ∂P) - Var[Z 0; P] ^ 2 := by
    rw [variance_eq_sub hsq, hVar]
    congr 1
    refine integral_congr_ae (Eventually.of_forall fun ω => ?_)
    show ((Z 0 ω - μ) ^ 2) ^ 2 = (Z 0 ω - μ) ^ 4
    ring
  have hV0 : 0 < Var[fun ω => (Z 0 ω - μ) ^ 2; P] := lt_of_le_of_ne (ProbabilityTheory.variance_nonneg _ _) hV.symm
  have hmeas : ∀ n : ℕ, AEMeasurable (fun ω => -(√n * (Spec.mean (firstN (Z · ω) n) - μ) ^ 2)) P :=
    fun n => ((((measurable_mean hZ n).sub_const μ).pow_const 2).const_mul _).neg
  have hd := (clt_mean (hZ.squares μ) hsq).add_of_tendstoInMeasure_const (sq_mean_vanishes hZ h2) hmeas
  simp only [add_zero] at hd
  have key := normal_limit (Real.sqrt_pos.2 hV0) hd t
  rw [e4] at key
  refine key.congr' ?_
  filter_upwards [eventually_ge_atTop 1] with n hn
  have e : ∀ ω, √(n : ℝ) * (Spec.variance (firstN (Z · ω) n) - Var[Z 0; P])
      = √n * (Spec.mean (firstN (fun i => (Z i ω - μ) ^ 2) n) - ∫ ω, (Z 0 ω - μ) ^ 2 ∂P)
        + -(√n * (Spec.mean (firstN (Z · ω) n) - μ) ^ 2) := by
    intro ω
    rw [Spec.variance, firstN_length, central_two_avg (Z · ω) μ (by omega), hVar, mean_sub (Z · ω) μ (by omega), mean_firstN, avg]
    ring
  congr 1
  ext ω
  rw [Set.mem_ofPred_eq, Set.mem_ofPred_eq, resultOf_variance hn (hw n)]
  constructor
  · intro h
    refine ⟨_, rfl, ?_⟩
    rw [e]; exact h
  · rintro ⟨v, h1, h2⟩
    rw [X.fin_inj] at h1
    rw [← h1, e] at h2
    exact h2

end

/-! ### Non-vacuity -/

theorem normal_sample_eval {β : Type} [MeasurableSpace β] (ν : Measure β) [IsProbabilityMeasure ν] :
    Sample (fun i (ω : ℕ → β) => ω i) (Measure.infinitePi fun _ : ℕ => ν) :=
  ⟨iIndepFun_infinitePi (P := fun _ : ℕ => ν) (X := fun _ => id) fun _ => measurable_id, (iid_eval ν).ident⟩

/-- Throws of a coin with the sides 1 (probability 1/4) and 5: the interval `mean() ± 2 sqrt(variance() / n)` contains the expectation 4 with
a probability that tends to that of two standard deviations of the normal distribution. -/
example : ∃ P : Measure (ℕ → ℝ), IsProbabilityMeasure P ∧
    Tendsto (fun n : ℕ => P {ω | ∃ m v : ℝ, (resultOf ε n ω n).getMean = X.fin m ∧ (resultOf ε n ω n).variance = X.fin v
      ∧ |m - 4| ≤ 2 * √(v / n)}) atTop (𝓝 (gaussianReal 0 1 (Set.Icc (-2) 2))) := by
  have h0 : (0 : ℝ) ≤ 1 / 4 := by norm_num
  have h1 : (1 / 4 : ℝ) ≤ 1 := by norm_num
  have hp := coin_prob (a := (1 : ℝ)) (b := 5) h0 h1
  have hm := coin_moments (a := 1) (b := 5) h0 h1 2
  have h2 := eval_memLp (coin (1 / 4) (1 : ℝ) 5) (coin_memLp h0 h1 measurable_id' 2)
  have hmean : ∫ ω : ℕ → ℝ, ω 0 ∂(Measure.infinitePi fun _ : ℕ => coin (1 / 4) (1 : ℝ) 5) = 4 := by rw [hm.1]; norm_num
  refine ⟨Measure.infinitePi fun _ : ℕ => coin (1 / 4) (1 : ℝ) 5, inferInstance, ?_⟩
  have := (C170_interval (ε := ε) (normal_sample_eval (coin (1 / 4) (1 : ℝ) 5)) h2 ?_ (w := fun n => n) (fun n => Nat.lt_two_pow_self)
    (q := 2) (by norm_num)).1
  · rw [hmean] at this
    exact this
  · rw [variance_eq_integral h2.1.aemeasurable]
    intro e
    have := e.symm.trans hm.2
    norm_num at this

/-- The squared deviations of this coin are 9 and 1, so the variance is asymptotically normal, with the factor sqrt 12. -/
example (t : ℝ) : ∃ P : Measure (ℕ → ℝ), IsProbabilityMeasure P ∧
    Tendsto (fun n : ℕ => P {ω | ∃ v : ℝ, (resultOf ε n ω n).variance = X.fin v ∧ √n * (v - 3) ≤ t * √12}) atTop
      (𝓝 (gaussianReal 0 1 (Set.Iic t))) := by
  have h0 : (0 : ℝ) ≤ 1 / 4 := by norm_num
  have h1 : (1 / 4 : ℝ) ≤ 1 := by norm_num
  have hp := coin_prob (a := (1 : ℝ)) (b := 5) h0 h1
  have hm := coin_moments (a := 1) (b := 5) h0 h1 2
  have hm4 := (coin_moments (a := 1) (b := 5) h0 h1 4).2
  have h4 := eval_memLp (coin (1 / 4) (1 : ℝ) 5) (coin_memLp h0 h1 measurable_id' 4)
  have hmean : ∫ ω : ℕ → ℝ, ω 0 ∂(Measure.infinitePi fun _ : ℕ => coin (1 / 4) (1 : ℝ) 5) = 4 := by rw [hm.1]; norm_num
  have hvar : Var[fun ω : ℕ → ℝ => ω 0; Measure.infinitePi fun _ : ℕ => coin (1 / 4) (1 : ℝ) 5] = 3 := by
    rw [variance_eq_integral h4.1.aemeasurable]
    refine hm.2.trans ?_
    norm_num
  refine ⟨Measure.infinitePi fun _ : ℕ => coin (1 / 4) (1 : ℝ) 5, inferInstance, ?_⟩
  have := C170_variance (ε := ε) (normal_sample_eval (coin (1 / 4) (1 : ℝ) 5)) h4 ?_ (w := fun n => n) (fun n => Nat.lt_two_pow_self) t
  · rw [hvar, hm4] at this
    norm_num at this ⊢
    exact this
  · rw [hmean, variance_eq_integral ((((measurable_pi_apply 0).sub_const 4).pow_const 2).aemeasurable)]
    rw [eval_integral (coin (1 / 4) (1 : ℝ) 5) (g := fun x => (x - 4) ^ 2) (by fun_prop),
      eval_integral (coin (1 / 4) (1 : ℝ) 5) (g := fun x => ((x - 4) ^ 2 - ∫ x, (x - 4) ^ 2 ∂(coin (1 / 4) (1 : ℝ) 5)) ^ 2) (by fun_prop),
      coin_integral h0 h1, coin_integral h0 h1]
    norm_num

end Verif.Props
