import Verif.Proofs.Stochastic
import Mathlib.Probability.Independence.InfinitePi
/-
C125, C126: with more and more independent data the statistics approach those of the distribution.
-/
namespace Verif.Props
open Filter Topology MeasureTheory ProbabilityTheory Verif.Stochastic Exact Cumulative
open scoped ENNReal

variable {ε : ℝ} {Ω : Type} {mΩ : MeasurableSpace Ω} {P : Measure Ω} [IsProbabilityMeasure P]

/-- `f w n`, the result for `n` values with counters of `w` bits, is as close to `L` as desired for all large `n` that the counter
can represent (`k = 1`) or whose square it can represent (`k = 2`). -/
def Approaches (k : ℕ) (f : ℕ → ℕ → E ε) (L : ℝ) : Prop :=
  ∀ δ > 0, ∃ n₀, ∀ n ≥ n₀, ∀ w, n ^ k < 2 ^ w → ∃ v : ℝ, f w n = X.fin v ∧ |v - L| < δ

theorem Approaches.of_tendsto {k : ℕ} {f : ℕ → ℕ → E ε} {L : ℝ} {v : ℕ → ℝ} (hv : Tendsto v atTop (𝓝 L))
    (h : ∀ᶠ n in atTop, ∀ w, n ^ k < 2 ^ w → f w n = X.fin (v n)) : Approaches k f L := by
  intro δ hδ
  obtain ⟨n₁, h1⟩ := Metric.tendsto_atTop.1 hv δ hδ
  obtain ⟨n₂, h2⟩ := eventually_atTop.1 h
  exact ⟨max n₁ n₂, fun n hn w hw => ⟨v n, h2 n (le_trans (le_max_right ..) hn) w hw, h1 n (le_trans (le_max_left ..) hn)⟩⟩

/-- The history that pushes the first `n` values. -/
def pushFirst {β : Type} (x : ℕ → β) (n : ℕ) : List (Op β) := (firstN x n).map .push

theorem sinceClear_pushFirst {β : Type} (x : ℕ → β) (n : ℕ) : sinceClear (pushFirst x n) = firstN x n := sinceClear_pushes _

/-- Independent values with the same distribution. -/
structure IID {β : Type} [MeasurableSpace β] (Z : ℕ → Ω → β) (P : Measure Ω) : Prop where
  indep : Pairwise fun i j => IndepFun (Z i) (Z j) P
  ident : ∀ i, IdentDistrib (Z i) (Z 0) P P

/-- The powers of the deviation of a random variable that has a `k`-th moment. -/
theorem integrable_dev {Y : Ω → ℝ} {k : ℕ} (hY : MemLp Y k P) (c : ℝ) : Integrable (fun ω => (Y ω - c) ^ k) P := by
  have h : MemLp (fun ω => Y ω - c) k P := hY.sub (memLp_const c)
  refine (h.integrable_norm_pow').mono' (h.1.pow k) ?_
  filter_upwards with ω
  rw [norm_pow]

omit [IsProbabilityMeasure P] in
theorem avg_law {Z : ℕ → Ω → ℝ} (hZ : IID Z P) (k : ℕ) (c : ℝ) (hint : Integrable (fun ω => (Z 0 ω - c) ^ k) P) :
    ∀ᵐ ω ∂P, Tendsto (avg (fun i => Z i ω) k c) atTop (𝓝 (∫ ω, (Z 0 ω - c) ^ k ∂P)) :=
  law hZ.indep hZ.ident (g := fun x => (x - c) ^ k) (by fun_prop) hint

theorem avg_one {Z : ℕ → Ω → ℝ} (hZ : IID Z P) (hint : Integrable (Z 0) P) :
    ∀ᵐ ω ∂P, Tendsto (avg (fun i => Z i ω) 1 (∫ ω, Z 0 ω ∂P)) atTop (𝓝 0) := by
  have := avg_law hZ 1 (∫ ω, Z 0 ω ∂P) (by simp only [pow_one]; exact hint.sub (integrable_const _))
  simp only [pow_one] at this
  rwa [integral_sub hint (integrable_const _), integral_const, probReal_univ, one_smul, sub_self] at this

/-! ### C125 -/

omit [IsProbabilityMeasure P] in
/-- C125: the mean approaches the expectation. -/
theorem C125_mean {Z : ℕ → Ω → ℝ} (hZ : IID Z P) (hint : Integrable (Z 0) P) :
    ∀ᵐ ω ∂P, Approaches 1 (fun w n => (Mean.run (finOps (pushFirst (Z · ω) n)) : Mean w (E ε)).getMean) (∫ ω, Z 0 ω ∂P) := by
  filter_upwards [law hZ.indep hZ.ident measurable_id hint] with ω h
  refine Approaches.of_tendsto (v := fun n => Spec.mean (firstN (Z · ω) n)) ?_ ?_
  · refine h.congr fun n => ?_
    rw [mean_firstN]; rfl
  · refine Eventually.of_forall fun n w hw => ?_
    have hs := sinceClear_pushFirst (Z · ω) n
    rw [(C01_mean _ (by rw [hs, firstN_length]; simpa using hw)).1, hs]

/-- C125: variance and unbiased variance approach the variance. -/
theorem C125_variance {Z : ℕ → Ω → ℝ} (hZ : IID Z P) (h2 : MemLp (Z 0) 2 P) :
    ∀ᵐ ω ∂P, Approaches 1 (fun w n => (Variance.run (finOps (pushFirst (Z · ω) n)) : Variance w (E ε)).variance) Var[Z 0; P]
      ∧ Approaches 1 (fun w n => (Variance.run (finOps (pushFirst (Z · ω) n)) : Variance w (E ε)).unbiasedVariance) Var[Z 0; P] := by
  have hV := variance_eq_integral h2.1.aemeasurable
  filter_upwards [avg_one hZ (h2.integrable (by norm_num)), avg_law hZ 2 _ (integrable_dev (k := 2) h2 (∫ ω, Z 0 ω ∂P))] with ω h1' h2'
  rw [← hV] at h2'
  have hv := variance_limit h1' h2'
  have hs := sinceClear_pushFirst (Z · ω)
  constructor
  · refine Approaches.of_tendsto hv ?_
    filter_upwards [eventually_ge_atTop 1] with n hn w hw
    have := (C02_variance (w := w) (ε := ε) (pushFirst (Z · ω) n) (by rw [hs, firstN_length]; simpa using hw)).1
      (by rw [hs, firstN_length]; exact hn)
    rw [this.1, hs]
  · have hlim : Tendsto (fun n : ℕ => Spec.variance (firstN (Z · ω) n) * ((n : ℝ) / (n - 1))) atTop (𝓝 Var[Z 0; P]) := by
      have : Tendsto (fun n : ℕ => (n : ℝ) / (n - 1)) atTop (𝓝 1) := by
        have h := tendsto_one_div_add_atTop_nhds_zero_nat (𝕜 := ℝ)
        have h' : Tendsto (fun n : ℕ => 1 + 1 / ((n : ℝ) - 1)) atTop (𝓝 (1 + 0)) := by
          refine Tendsto.const_add 1 ?_
          rw [← tendsto_add_atTop_iff_nat 2]
          refine h.congr fun n => ?_
          push_cast; ring_nf
        rw [add_zero] at h'
        refine h'.congr' ?_
        filter_upwards [eventually_ge_atTop 2] with n hn
        have : (n : ℝ) - 1 ≠ 0 := by
          have : (2 : ℝ) ≤ n := by exact_mod_cast hn
          linarith
        field_simp; ring
      simpa using hv.mul this
    refine Approaches.of_tendsto hlim ?_
    filter_upwards [eventually_ge_atTop 2] with n hn w hw
    have := (C02_variance (w := w) (ε := ε) (pushFirst (Z · ω) n) (by rw [hs, firstN_length]; simpa using hw)).2
      (by rw [hs, firstN_length]; exact hn)
    rw [this.1, hs, X.fin_inj, Spec.sampleVariance, Spec.variance, firstN_length]
    have : (n : ℝ) ≠ 0 := by positivity
    field_simp

/-- Equal to its expectation if the variance is zero. -/
theorem dev_zero {Y : Ω → ℝ} (h2 : MemLp Y 2 P) (h : Var[Y; P] = 0) (k : ℕ) (hk : k ≠ 0) :
    ∫ ω, (Y ω - ∫ ω, Y ω ∂P) ^ k ∂P = 0 := by
  have := ae_eq_integral_of_variance_eq_zero h2 h
  refine integral_eq_zero_of_ae ?_
  filter_upwards [this] with ω h
  rw [h]; simp [hk]

/-- The fourth moment of a random variable that is not constant. -/
theorem fourth_pos {Y : Ω → ℝ} (h4 : MemLp Y 4 P) (h : Var[Y; P] ≠ 0) : 0 < ∫ ω, (Y ω - ∫ ω, Y ω ∂P) ^ 4 ∂P := by
  have hn : ∀ ω, 0 ≤ (Y ω - ∫ ω, Y ω ∂P) ^ 4 := fun ω => by positivity
  refine lt_of_le_of_ne (integral_nonneg hn) fun e => h ?_
  have h0 := (integral_eq_zero_iff_of_nonneg hn (integrable_dev (k := 4) h4 _)).1 e.symm
  have h2 : MemLp Y 2 P := h4.mono_exponent (by norm_num)
  rw [variance_eq_integral h2.1.aemeasurable]
  refine integral_eq_zero_of_ae ?_
  filter_upwards [h0] with ω h
  have : Y ω - ∫ ω, Y ω ∂P = 0 := by simpa using h
  rw [this]; simp

/-- C125: the kurtosis approaches the kurtosis (`n * n` must be representable). -/
theorem C125_kurtosis (hε : 0 < ε) {Z : ℕ → Ω → ℝ} (hZ : IID Z P) (h4 : MemLp (Z 0) 4 P) (hV0 : Var[Z 0; P] ≠ 0) :
    ∀ᵐ ω ∂P, Approaches 2 (fun w n => (Kurtosis.run (finOps (pushFirst (Z · ω) n)) : Kurtosis w (E ε)).kurtosis)
      ((∫ ω, (Z 0 ω - ∫ ω, Z 0 ω ∂P) ^ 4 ∂P) / Var[Z 0; P] ^ 2) := by
  have h2 : MemLp (Z 0) 2 P := h4.mono_exponent (by norm_num)
  have h3 : MemLp (Z 0) 3 P := h4.mono_exponent (by norm_num)
  have hV := variance_eq_integral h2.1.aemeasurable
  have hpos := fourth_pos h4 hV0
  filter_upwards [avg_one hZ (h2.integrable (by norm_num)), avg_law hZ 2 _ (integrable_dev (k := 2) h2 (∫ ω, Z 0 ω ∂P)),
    avg_law hZ 3 _ (integrable_dev (k := 3) h3 (∫ ω, Z 0 ω ∂P)), avg_law hZ 4 _ (integrable_dev (k := 4) h4 (∫ ω, Z 0 ω ∂P))]
    with ω a1 a2 a3 a4
  rw [← hV] at a2
  have hv := variance_limit a1 a2
  have hk := fourth_limit a1 a2 a3 a4
  have hs := sinceClear_pushFirst (Z · ω)
  refine Approaches.of_tendsto (v := fun n => Spec.kurtosis (firstN (Z · ω) n)) ?_ ?_
  · refine (hk.div (hv.pow 2) (pow_ne_zero 2 hV0)).congr fun n => ?_
    simp only [Pi.div_apply, Spec.kurtosis, firstN_length]
  · have e1 : ∀ᶠ n : ℕ in atTop, (∫ ω, (Z 0 ω - ∫ ω, Z 0 ω ∂P) ^ 4 ∂P) / 2 < Spec.central 4 (firstN (Z · ω) n) / n :=
      hk.eventually_const_lt (by linarith)
    have e2 : ∀ᶠ n : ℕ in atTop, ε / ((∫ ω, (Z 0 ω - ∫ ω, Z 0 ω ∂P) ^ 4 ∂P) / 2) ≤ (n : ℝ) :=
      tendsto_natCast_atTop_atTop.eventually_ge_atTop _
    filter_upwards [e1, e2, eventually_ge_atTop 1] with n h1 h2 h3 w hw
    have hn : (0 : ℝ) < n := by exact_mod_cast h3
    refine (((C04_kurtosis (w := w) hε (pushFirst (Z · ω) n) ?_).2 ?_).1).trans ?_
    · rw [hs, firstN_length, ← pow_two]; exact hw
    · rw [hs]
      rw [lt_div_iff₀ hn] at h1
      rw [div_le_iff₀ (by linarith)] at h2
      linarith
    · rw [hs]

/-- The history of pairs. -/
theorem C125_pairs_aux {Z : ℕ → Ω → ℝ × ℝ} (hZ : IID Z P) (hx : MemLp (fun ω => (Z 0 ω).1) 2 P) (hy : MemLp (fun ω => (Z 0 ω).2) 2 P) :
    ∀ᵐ ω ∂P, Tendsto (fun n => Spec.covariance (firstN (Z · ω) n)) atTop (𝓝 cov[fun ω => (Z 0 ω).1, fun ω => (Z 0 ω).2; P])
      ∧ Tendsto (fun n => Spec.variance (Spec.xsOf (firstN (Z · ω) n))) atTop (𝓝 Var[fun ω => (Z 0 ω).1; P])
      ∧ Tendsto (fun n => Spec.variance (Spec.ysOf (firstN (Z · ω) n))) atTop (𝓝 Var[fun ω => (Z 0 ω).2; P]) := by
  have zx : IID (fun i ω => (Z i ω).1) P :=
    ⟨fun _ _ hij => (hZ.indep hij).comp measurable_fst measurable_fst, fun i => (hZ.ident i).comp measurable_fst⟩
  have zy : IID (fun i ω => (Z i ω).2) P :=
    ⟨fun _ _ hij => (hZ.indep hij).comp measurable_snd measurable_snd, fun i => (hZ.ident i).comp measurable_snd⟩
  set a := ∫ ω, (Z 0 ω).1 ∂P with ha
  set b := ∫ ω, (Z 0 ω).2 ∂P with hb
  have hint : Integrable (fun ω => ((Z 0 ω).1 - a) * ((Z 0 ω).2 - b)) P :=
    (hx.sub (memLp_const a)).integrable_mul (hy.sub (memLp_const b))
  have hVx := variance_eq_integral hx.1.aemeasurable
  have hVy := variance_eq_integral hy.1.aemeasurable
  filter_upwards [avg_one zx (hx.integrable (by norm_num)), avg_one zy (hy.integrable (by norm_num)),
    law hZ.indep hZ.ident (g := fun z => (z.1 - a) * (z.2 - b)) (by fun_prop) hint,
    avg_law zx 2 _ (integrable_dev (k := 2) hx a), avg_law zy 2 _ (integrable_dev (k := 2) hy b)] with ω h1 h2 h3 h4 h5
  rw [← hVx] at h4
  rw [← hVy] at h5
  refine ⟨cov_limit h1 h2 h3, ?_, ?_⟩
  · refine (variance_limit h1 h4).congr fun n => ?_
    rw [xsOf_firstN]
  · refine (variance_limit h2 h5).congr fun n => ?_
    rw [ysOf_firstN]

/-- C125: the covariance approaches the covariance, the slope the slope of the best linear predictor, the correlation the correlation
coefficient (if the product of the variances exceeds the cut-off `ε`). -/
theorem C125_pairs (hε : 0 < ε) {Z : ℕ → Ω → ℝ × ℝ} (hZ : IID Z P) (hx : MemLp (fun ω => (Z 0 ω).1) 2 P)
    (hy : MemLp (fun ω => (Z 0 ω).2) 2 P) :
    ∀ᵐ ω ∂P, Approaches 1 (fun w n => (Comoment.run (finOps2 (pushFirst (Z · ω) n)) : Comoment w (E ε)).variance)
          cov[fun ω => (Z 0 ω).1, fun ω => (Z 0 ω).2; P]
      ∧ (Var[fun ω => (Z 0 ω).1; P] ≠ 0 →
          Approaches 1 (fun w n => (Regression.run (finOps2 (pushFirst (Z · ω) n)) : Regression w (E ε)).slope)
            (cov[fun ω => (Z 0 ω).1, fun ω => (Z 0 ω).2; P] / Var[fun ω => (Z 0 ω).1; P]))
      ∧ (ε < Var[fun ω => (Z 0 ω).1; P] * Var[fun ω => (Z 0 ω).2; P] →
          Approaches 1 (fun w n => (Correlation.run (finOps2 (pushFirst (Z · ω) n)) : Correlation w (E ε)).value)
            (cov[fun ω => (Z 0 ω).1, fun ω => (Z 0 ω).2; P] / √(Var[fun ω => (Z 0 ω).1; P] * Var[fun ω => (Z 0 ω).2; P]))) := by
  filter_upwards [C125_pairs_aux hZ hx hy] with ω h
  obtain ⟨hc, hvx, hvy⟩ := h
  have hs := sinceClear_pushFirst (Z · ω)
  refine ⟨?_, fun hV => ?_, fun hV => ?_⟩
  · refine Approaches.of_tendsto hc ?_
    filter_upwards [eventually_ge_atTop 1] with n hn w hw
    rw [(C09_covariance (w := w) (ε := ε) (pushFirst (Z · ω) n) (by rw [hs, firstN_length]; simpa using hw)).2.2.1
      (by rw [hs, firstN_length]; exact hn), hs]
  · refine Approaches.of_tendsto (hc.div hvx hV) ?_
    filter_upwards [eventually_ge_atTop 1, hvx.eventually_ne hV] with n hn hne w hw
    rw [(regression_result (w := w) (ε := ε) (pushFirst (Z · ω) n) (by rw [hs, firstN_length]; simpa using hw)
      (by rw [hs, firstN_length]; exact hn)).1, hs, X.fin_inj]
    have hn' : (n : ℝ) ≠ 0 := by positivity
    have hce : Spec.central 2 (Spec.xsOf (firstN (Z · ω) n)) ≠ 0 := by
      intro e; apply hne; rw [Spec.variance, e, zero_div]
    rw [if_neg hce, Pi.div_apply, Spec.covariance, Spec.variance, Spec.length_xsOf, firstN_length]
    field_simp
  · have hprod := hvx.mul hvy
    have hq := hc.div (Real.continuous_sqrt.continuousAt.tendsto.comp hprod) (Real.sqrt_ne_zero'.2 (hε.trans hV))
    refine Approaches.of_tendsto hq ?_
    filter_upwards [eventually_ge_atTop 1, hprod.eventually_const_lt hV] with n hn hlt w hw
    have := correlation_result (w := w) hε (pushFirst (Z · ω) n) (by rw [hs, firstN_length]; simpa using hw)
      (by rw [hs, firstN_length]; exact hn)
    simp only [hs] at this
    rw [this, if_neg (not_lt.2 hlt.le)]
    rfl

/-! ### Concrete distributions -/

/-- A random value that is `a` with probability `p` and `b` otherwise. -/
noncomputable def coin {β : Type} [MeasurableSpace β] (p : ℝ) (a b : β) : Measure β :=
  ENNReal.ofReal p • Measure.dirac a + ENNReal.ofReal (1 - p) • Measure.dirac b

section coin
variable {β : Type} [MeasurableSpace β] {p : ℝ} {a b : β}

theorem coin_prob (h0 : 0 ≤ p) (h1 : p ≤ 1) : IsProbabilityMeasure (coin p a b) := by
  constructor
  rw [coin, Measure.add_apply, Measure.smul_apply, Measure.smul_apply, measure_univ, measure_univ, smul_eq_mul, smul_eq_mul, mul_one,
    mul_one, ← ENNReal.ofReal_add h0 (by linarith)]
  simp

theorem coin_integrable [MeasurableSingletonClass β] (g : β → ℝ) : Integrable g (coin p a b) := by
  rw [coin]
  refine Integrable.add_measure ?_ ?_
  · exact (integrable_dirac (by simp)).smul_measure ENNReal.ofReal_ne_top
  · exact (integrable_dirac (by simp)).smul_measure ENNReal.ofReal_ne_top

theorem coin_integral [MeasurableSingletonClass β] (h0 : 0 ≤ p) (h1 : p ≤ 1) (g : β → ℝ) :
    ∫ x, g x ∂(coin p a b) = p * g a + (1 - p) * g b := by
  rw [coin, integral_add_measure, integral_smul_measure, integral_smul_measure, integral_dirac, integral_dirac,
    ENNReal.toReal_ofReal h0, ENNReal.toReal_ofReal (by linarith)]
  · rfl
  · exact (integrable_dirac (by simp)).smul_measure ENNReal.ofReal_ne_top
  · exact (integrable_dirac (by simp)).smul_measure ENNReal.ofReal_ne_top

theorem coin_memLp [MeasurableSingletonClass β] (h0 : 0 ≤ p) (h1 : p ≤ 1) {g : β → ℝ} (hg : Measurable g) (q : ℝ≥0∞) :
    MemLp g q (coin p a b) := by
  have := coin_prob (a := a) (b := b) h0 h1
  refine MemLp.of_bound hg.aestronglyMeasurable (max |g a| |g b|) ?_
  rw [coin, ae_add_measure_iff]
  constructor
  · refine Measure.ae_smul_measure ?_ _
    rw [ae_dirac_eq, eventually_pure]
    exact le_max_left ..
  · refine Measure.ae_smul_measure ?_ _
    rw [ae_dirac_eq, eventually_pure]
    exact le_max_right ..

end coin

/-- Independent repetitions of a random experiment. -/
theorem iid_eval {β : Type} [MeasurableSpace β] (ν : Measure β) [IsProbabilityMeasure ν] :
    IID (fun i (ω : ℕ → β) => ω i) (Measure.infinitePi fun _ : ℕ => ν) := by
  have hm := fun i : ℕ => measurePreserving_eval_infinitePi (fun _ : ℕ => ν) i
  refine ⟨fun i j hij => ?_, fun i => ⟨(hm i).measurable.aemeasurable, (hm 0).measurable.aemeasurable, ?_⟩⟩
  · exact (iIndepFun_infinitePi (P := fun _ : ℕ => ν) (X := fun _ => id) fun _ => measurable_id).indepFun hij
  · exact ((hm i).map_eq).trans ((hm 0).map_eq).symm

theorem eval_integral {β : Type} [MeasurableSpace β] (ν : Measure β) [IsProbabilityMeasure ν] {g : β → ℝ} (hg : Measurable g) :
    ∫ ω, g (ω 0) ∂(Measure.infinitePi fun _ : ℕ => ν) = ∫ x, g x ∂ν := by
  have hm := measurePreserving_eval_infinitePi (fun _ : ℕ => ν) 0
  conv_rhs => rw [← hm.map_eq, integral_map hm.measurable.aemeasurable hg.aestronglyMeasurable]

theorem eval_memLp {β : Type} [MeasurableSpace β] (ν : Measure β) [IsProbabilityMeasure ν] {g : β → ℝ} {q : ℝ≥0∞} (hg : MemLp g q ν) :
    MemLp (fun ω : ℕ → β => g (ω 0)) q (Measure.infinitePi fun _ : ℕ => ν) :=
  hg.comp_measurePreserving (measurePreserving_eval_infinitePi (fun _ : ℕ => ν) 0)

/-- Expectation and moments of a number that is `a` with probability `p` and `b` otherwise. -/
theorem coin_moments {p a b : ℝ} (h0 : 0 ≤ p) (h1 : p ≤ 1) (k : ℕ) :
    have := coin_prob (a := a) (b := b) h0 h1
    let P := Measure.infinitePi fun _ : ℕ => coin p a b
    (∫ ω, ω 0 ∂P) = p * a + (1 - p) * b
    ∧ (∫ ω, (ω 0 - ∫ ω, ω 0 ∂P) ^ k ∂P) = p * ((1 - p) * (a - b)) ^ k + (1 - p) * (p * (b - a)) ^ k := by
  intro hp P
  have e : (∫ ω, ω 0 ∂P) = p * a + (1 - p) * b := by
    rw [eval_integral (coin p a b) measurable_id', coin_integral h0 h1]
  refine ⟨e, ?_⟩
  rw [e, eval_integral (coin p a b) (g := fun x => (x - (p * a + (1 - p) * b)) ^ k) (by fun_prop), coin_integral h0 h1]
  congr 3 <;> ring

/-- The mean of independent throws of a die with the faces 1 (probability 1/4) and 5 approaches 4, the variance 3. -/
example : ∃ P : Measure (ℕ → ℝ), IsProbabilityMeasure P ∧ ∀ᵐ ω ∂P,
    Approaches 1 (fun w n => (Mean.run (finOps (pushFirst ω n)) : Mean w (E ε)).getMean) 4
    ∧ Approaches 1 (fun w n => (Variance.run (finOps (pushFirst ω n)) : Variance w (E ε)).variance) 3 := by
  have h0 : (0 : ℝ) ≤ 1 / 4 := by norm_num
  have h1 : (1 / 4 : ℝ) ≤ 1 := by norm_num
  have hp := coin_prob (a := (1 : ℝ)) (b := 5) h0 h1
  have hm := coin_moments (a := 1) (b := 5) h0 h1 2
  have h2 := eval_memLp (coin (1 / 4) (1 : ℝ) 5) (coin_memLp h0 h1 measurable_id' 2)
  refine ⟨Measure.infinitePi fun _ : ℕ => coin (1 / 4) (1 : ℝ) 5, inferInstance, ?_⟩
  have i := iid_eval (coin (1 / 4) (1 : ℝ) 5)
  filter_upwards [C125_mean i (h2.integrable (by norm_num)), C125_variance i h2] with ω hmean hvar
  refine ⟨?_, ?_⟩
  · convert hmean using 1
    rw [hm.1]; norm_num
  · convert hvar.1 using 1
    rw [variance_eq_integral h2.1.aemeasurable]
    refine Eq.trans ?_ hm.2.symm
    norm_num

/-- Kurtosis of a fair coin. -/
example (hε : 0 < ε) : ∃ P : Measure (ℕ → ℝ), IsProbabilityMeasure P ∧ ∀ᵐ ω ∂P,
    Approaches 2 (fun w n => (Kurtosis.run (finOps (pushFirst ω n)) : Kurtosis w (E ε)).kurtosis) 1 := by
  have h0 : (0 : ℝ) ≤ 1 / 2 := by norm_num
  have h1 : (1 / 2 : ℝ) ≤ 1 := by norm_num
  have hp := coin_prob (a := (0 : ℝ)) (b := 2) h0 h1
  have hm2 := (coin_moments (a := 0) (b := 2) h0 h1 2).2
  have hm4 := (coin_moments (a := 0) (b := 2) h0 h1 4).2
  have h4 := eval_memLp (coin (1 / 2) (0 : ℝ) 2) (coin_memLp h0 h1 measurable_id' 4)
  refine ⟨Measure.infinitePi fun _ : ℕ => coin (1 / 2) (0 : ℝ) 2, inferInstance, ?_⟩
  have i := iid_eval (coin (1 / 2) (0 : ℝ) 2)
  have hV : Var[fun ω : ℕ → ℝ => ω 0; Measure.infinitePi fun _ : ℕ => coin (1 / 2) (0 : ℝ) 2] = 1 := by
    rw [variance_eq_integral h4.1.aemeasurable]
    refine hm2.trans ?_
    norm_num
  filter_upwards [C125_kurtosis hε i h4 (by exact hV.trans_ne one_ne_zero)] with ω h
  convert h using 1
  refine ((congrArg₂ (fun a b => a / b ^ 2) hm4 hV).trans ?_).symm
  norm_num

/-- Slope of the line through `(0, 1)` and `(2, 5)`, each observed with probability 1/2. -/
example (hε : 0 < ε) (hε1 : ε ≤ 1) : ∃ P : Measure (ℕ → ℝ × ℝ), IsProbabilityMeasure P ∧ ∀ᵐ ω ∂P,
    Approaches 1 (fun w n => (Comoment.run (finOps2 (pushFirst ω n)) : Comoment w (E ε)).variance) 2
    ∧ Approaches 1 (fun w n => (Regression.run (finOps2 (pushFirst ω n)) : Regression w (E ε)).slope) 2
    ∧ Approaches 1 (fun w n => (Correlation.run (finOps2 (pushFirst ω n)) : Correlation w (E ε)).value) 1 := by
  have h0 : (0 : ℝ) ≤ 1 / 2 := by norm_num
  have h1 : (1 / 2 : ℝ) ≤ 1 := by norm_num
  set ν := coin (1 / 2) ((0 : ℝ), (1 : ℝ)) (2, 5) with hν
  have hp : IsProbabilityMeasure ν := coin_prob h0 h1
  have hx := eval_memLp ν (coin_memLp (q := 2) h0 h1 measurable_fst)
  have hy := eval_memLp ν (coin_memLp (q := 2) h0 h1 measurable_snd)
  have ex : (∫ ω : ℕ → ℝ × ℝ, (ω 0).1 ∂(Measure.infinitePi fun _ : ℕ => ν)) = 1 := by
    rw [eval_integral ν measurable_fst, coin_integral h0 h1]; norm_num
  have ey : (∫ ω : ℕ → ℝ × ℝ, (ω 0).2 ∂(Measure.infinitePi fun _ : ℕ => ν)) = 3 := by
    rw [eval_integral ν measurable_snd, coin_integral h0 h1]; norm_num
  have vx : Var[fun ω : ℕ → ℝ × ℝ => (ω 0).1; Measure.infinitePi fun _ : ℕ => ν] = 1 := by
    rw [variance_eq_integral hx.1.aemeasurable, ex, eval_integral ν (g := fun z => (z.1 - 1) ^ 2) (by fun_prop), coin_integral h0 h1]
    norm_num
  have vy : Var[fun ω : ℕ → ℝ × ℝ => (ω 0).2; Measure.infinitePi fun _ : ℕ => ν] = 4 := by
    rw [variance_eq_integral hy.1.aemeasurable, ey, eval_integral ν (g := fun z => (z.2 - 3) ^ 2) (by fun_prop), coin_integral h0 h1]
    norm_num
  have c : cov[fun ω : ℕ → ℝ × ℝ => (ω 0).1, fun ω => (ω 0).2; Measure.infinitePi fun _ : ℕ => ν] = 2 := by
    rw [covariance, ex, ey, eval_integral ν (g := fun z => (z.1 - 1) * (z.2 - 3)) (by fun_prop), coin_integral h0 h1]
    norm_num
  refine ⟨Measure.infinitePi fun _ : ℕ => ν, inferInstance, ?_⟩
  filter_upwards [C125_pairs hε (iid_eval ν) hx hy] with ω h
  simp only [vx, vy, c] at h
  refine ⟨h.1, ?_, ?_⟩
  · simpa using h.2.1 one_ne_zero
  · have := h.2.2 (by linarith)
    rwa [one_mul, show (4 : ℝ) = 2 ^ 2 by norm_num, Real.sqrt_sq (by norm_num), div_self (by norm_num)] at this

/-! ### C126 -/

/-- The skewness of a distribution. -/
noncomputable def skewnessOf (Y : Ω → ℝ) (P : Measure Ω) : ℝ := (∫ ω, (Y ω - ∫ ω, Y ω ∂P) ^ 3 ∂P) / √Var[Y; P] ^ 3

/-- C126: for independent, identically distributed values the skewness approaches the skewness of the distribution. -/
def C126_Statement (ε : ℝ) : Prop :=
  ∀ (Ω : Type) (_ : MeasurableSpace Ω) (P : Measure Ω) (_ : IsProbabilityMeasure P) (Z : ℕ → Ω → ℝ), IID Z P → MemLp (Z 0) 3 P →
    Var[Z 0; P] ≠ 0 →
    ∀ᵐ ω ∂P, Approaches 1 (fun w n => (Skewness.run (finOps (pushFirst (Z · ω) n)) : Skewness w (E ε)).skewness) (skewnessOf (Z 0) P)

/-- C126: the limit is the skewness of the distribution, but zero if that is negative. -/
theorem C126_limit (hε : 0 < ε) {Z : ℕ → Ω → ℝ} (hZ : IID Z P) (h3 : MemLp (Z 0) 3 P) (hV0 : Var[Z 0; P] ≠ 0) :
    ∀ᵐ ω ∂P, Approaches 1 (fun w n => (Skewness.run (finOps (pushFirst (Z · ω) n)) : Skewness w (E ε)).skewness)
      (max (skewnessOf (Z 0) P) 0) := by
  have h2 : MemLp (Z 0) 2 P := h3.mono_exponent (by norm_num)
  have hV := variance_eq_integral h2.1.aemeasurable
  have hVp : 0 < Var[Z 0; P] := lt_of_le_of_ne (ProbabilityTheory.variance_nonneg ..) (Ne.symm hV0)
  have hsp : 0 < √Var[Z 0; P] ^ 3 := pow_pos (Real.sqrt_pos.2 hVp) 3
  filter_upwards [avg_one hZ (h2.integrable (by norm_num)), avg_law hZ 2 _ (integrable_dev (k := 2) h2 (∫ ω, Z 0 ω ∂P)),
    avg_law hZ 3 _ (integrable_dev (k := 3) h3 (∫ ω, Z 0 ω ∂P))] with ω a1 a2 a3
  rw [← hV] at a2
  have hv := variance_limit a1 a2
  have ht := third_limit a1 a2 a3
  have hs := sinceClear_pushFirst (Z · ω)
  have hsk : Tendsto (fun n => Spec.skewness (firstN (Z · ω) n)) atTop (𝓝 (skewnessOf (Z 0) P)) := by
    refine (ht.div ((Real.continuous_sqrt.continuousAt.tendsto.comp hv).pow 3) hsp.ne').congr fun n => ?_
    simp only [Pi.div_apply, Spec.skewness, firstN_length, Function.comp]
  refine Approaches.of_tendsto
    (v := fun n => if Spec.central 3 (firstN (Z · ω) n) < ε then 0 else Spec.skewness (firstN (Z · ω) n)) ?_ ?_
  · set t := ∫ ω, (Z 0 ω - ∫ ω, Z 0 ω ∂P) ^ 3 ∂P with htd
    rcases lt_trichotomy t 0 with h | h | h
    · rw [max_eq_right (by exact div_nonpos_of_nonpos_of_nonneg h.le hsp.le)]
      refine tendsto_const_nhds.congr' ?_
      filter_upwards [ht.eventually_lt_const h, eventually_ge_atTop 1] with n hn h1
      have : (0 : ℝ) < n := by exact_mod_cast h1
      rw [if_pos]
      rw [div_lt_iff₀ this] at hn
      linarith
    · have h0 : skewnessOf (Z 0) P = 0 := by rw [skewnessOf, ← htd, h, zero_div]
      rw [h0] at hsk ⊢
      rw [max_self]
      refine squeeze_zero_norm (fun n => ?_) (tendsto_norm_zero.comp hsk)
      simp only [Function.comp]
      split_ifs
      · simp
      · exact le_rfl
    · rw [max_eq_left (by exact (div_pos h hsp).le)]
      refine hsk.congr' ?_
      have e2 : ∀ᶠ n : ℕ in atTop, ε / (t / 2) ≤ (n : ℝ) := tendsto_natCast_atTop_atTop.eventually_ge_atTop _
      filter_upwards [ht.eventually_const_lt (show t / 2 < t by linarith), e2, eventually_ge_atTop 1] with n hn h2 h1
      have : (0 : ℝ) < n := by exact_mod_cast h1
      rw [if_neg]
      rw [lt_div_iff₀ this] at hn
      rw [div_le_iff₀ (by linarith)] at h2
      linarith
  · refine Eventually.of_forall fun n w hw => ?_
    rw [skewness_result hε _ (by rw [hs, firstN_length]; simpa using hw), hs]

/-- C126 holds for distributions whose skewness is not negative. -/
theorem C126_skewness_partial (hε : 0 < ε) {Z : ℕ → Ω → ℝ} (hZ : IID Z P) (h3 : MemLp (Z 0) 3 P) (hV0 : Var[Z 0; P] ≠ 0)
    (hpos : 0 ≤ skewnessOf (Z 0) P) :
    ∀ᵐ ω ∂P, Approaches 1 (fun w n => (Skewness.run (finOps (pushFirst (Z · ω) n)) : Skewness w (E ε)).skewness)
      (skewnessOf (Z 0) P) := by
  have := C126_limit hε hZ h3 hV0
  rwa [max_eq_left hpos] at this

theorem Approaches.unique {k : ℕ} {f : ℕ → ℕ → E ε} {L L' : ℝ} (h : Approaches k f L) (h' : Approaches k f L') : L = L' := by
  by_contra hne
  have hd : 0 < |L - L'| / 2 := by
    have := abs_pos.2 (sub_ne_zero.2 hne); linarith
  obtain ⟨n, hn⟩ := h _ hd
  obtain ⟨m, hm⟩ := h' _ hd
  obtain ⟨v, e, hv⟩ := hn (max n m) (le_max_left ..) _ (Nat.lt_two_pow_self)
  obtain ⟨v', e', hv'⟩ := hm (max n m) (le_max_right ..) _ (Nat.lt_two_pow_self)
  rw [e, X.fin_inj] at e'
  subst e'
  have := abs_sub_abs_le_abs_sub L L'
  have : |L - L'| ≤ |v - L| + |v - L'| := by
    rw [abs_sub_comm v L]; exact abs_sub_le L v L'
  linarith

/-- Independent values that are 0 with probability 1/3 and 3 with probability 2/3 (or conversely). -/
theorem coin_skewness {p : ℝ} (h0 : 0 ≤ p) (h1 : p ≤ 1) :
    have := coin_prob (a := (0 : ℝ)) (b := 3) h0 h1
    let P := Measure.infinitePi fun _ : ℕ => coin p (0 : ℝ) 3
    Var[fun ω : ℕ → ℝ => ω 0; P] = 9 * p * (1 - p)
      ∧ skewnessOf (fun ω : ℕ → ℝ => ω 0) P = 27 * p * (1 - p) * (2 * p - 1) / √(9 * p * (1 - p)) ^ 3 := by
  intro hp P
  have h3 := eval_memLp (coin p (0 : ℝ) 3) (coin_memLp h0 h1 measurable_id' 3)
  have hV : Var[fun ω : ℕ → ℝ => ω 0; P] = 9 * p * (1 - p) := by
    rw [variance_eq_integral h3.1.aemeasurable]
    refine (coin_moments (a := 0) (b := 3) h0 h1 2).2.trans ?_
    ring
  refine ⟨hV, ?_⟩
  rw [skewnessOf, hV]
  congr 1
  refine (coin_moments (a := 0) (b := 3) h0 h1 3).2.trans ?_
  ring

/-- C126 is violated: for independent values that are 0 with probability 1/3 and 3 with probability 2/3 the skewness is negative but
`skewness()` approaches 0. -/
theorem C126_skewness_violated (hε : 0 < ε) : ¬ C126_Statement ε := by
  intro hst
  have h0 : (0 : ℝ) ≤ 1 / 3 := by norm_num
  have h1 : (1 / 3 : ℝ) ≤ 1 := by norm_num
  have hp := coin_prob (a := (0 : ℝ)) (b := 3) h0 h1
  have hs := coin_skewness h0 h1
  have h3 := eval_memLp (coin (1 / 3) (0 : ℝ) 3) (coin_memLp h0 h1 measurable_id' 3)
  have hV0 : Var[fun ω : ℕ → ℝ => ω 0; Measure.infinitePi fun _ : ℕ => coin (1 / 3) (0 : ℝ) 3] ≠ 0 := by
    rw [hs.1]; norm_num
  have A := hst _ _ _ inferInstance _ (iid_eval (coin (1 / 3) (0 : ℝ) 3)) h3 hV0
  have B := C126_limit hε (iid_eval (coin (1 / 3) (0 : ℝ) 3)) h3 hV0
  obtain ⟨ω, ha, hb⟩ := (A.and B).exists
  have := ha.unique hb
  rw [show skewnessOf _ _ = _ from hs.2] at this
  have hn : 27 * (1 / 3 : ℝ) * (1 - 1 / 3) * (2 * (1 / 3) - 1) / √(9 * (1 / 3) * (1 - 1 / 3)) ^ 3 < 0 := by
    refine div_neg_of_neg_of_pos (by norm_num) (pow_pos (Real.sqrt_pos.2 (by norm_num)) 3)
  rw [max_eq_right hn.le] at this
  linarith

/-- For values that are 0 with probability 2/3 and 3 with probability 1/3 the skewness is positive and is approached. -/
example (hε : 0 < ε) : ∃ P : Measure (ℕ → ℝ), IsProbabilityMeasure P ∧ ∀ᵐ ω ∂P,
    Approaches 1 (fun w n => (Skewness.run (finOps (pushFirst ω n)) : Skewness w (E ε)).skewness) (2 / √2 ^ 3) := by
  have h0 : (0 : ℝ) ≤ 2 / 3 := by norm_num
  have h1 : (2 / 3 : ℝ) ≤ 1 := by norm_num
  have hp := coin_prob (a := (0 : ℝ)) (b := 3) h0 h1
  have hs := coin_skewness h0 h1
  have h3 := eval_memLp (coin (2 / 3) (0 : ℝ) 3) (coin_memLp h0 h1 measurable_id' 3)
  have he : skewnessOf (fun ω : ℕ → ℝ => ω 0) (Measure.infinitePi fun _ : ℕ => coin (2 / 3) (0 : ℝ) 3) = 2 / √2 ^ 3 := by
    rw [hs.2]; norm_num
  refine ⟨Measure.infinitePi fun _ : ℕ => coin (2 / 3) (0 : ℝ) 3, inferInstance, ?_⟩
  have := C126_skewness_partial hε (iid_eval (coin (2 / 3) (0 : ℝ) 3)) h3 (by exact hs.1.trans_ne (by norm_num))
    (by rw [he]; positivity)
  simpa only [he] using this

end Verif.Props
