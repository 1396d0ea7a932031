import Verif.Props.NormalTests
/-
C176: for many independent data kurtosis() is normally distributed, and skewness() too if the distribution has positive skewness.
-/
namespace Verif.Props
open Filter Topology MeasureTheory ProbabilityTheory Verif.Stochastic Exact Cumulative
open scoped ENNReal

variable {ε : ℝ} {Ω : Type} {mΩ : MeasurableSpace Ω} {P : Measure Ω} [IsProbabilityMeasure P]

/-- The `k`-th central moment of a distribution. -/
noncomputable def momentOf (Y : Ω → ℝ) (P : Measure Ω) (k : ℕ) : ℝ := ∫ ω, (Y ω - ∫ ω, Y ω ∂P) ^ k ∂P

theorem momentOf_one {Y : Ω → ℝ} (h : Integrable Y P) : momentOf Y P 1 = 0 := by
  simp only [momentOf, pow_one]
  rw [integral_sub h (integrable_const _), integral_const, probReal_univ, one_smul, sub_self]

/-- Skewness and kurtosis of a distribution. -/
noncomputable def skewOf (Y : Ω → ℝ) (P : Measure Ω) : ℝ := momentOf Y P 3 / √Var[Y; P] ^ 3
noncomputable def kurtOf (Y : Ω → ℝ) (P : Measure Ω) : ℝ := momentOf Y P 4 / Var[Y; P] ^ 2

/-- The influence of one value on the skewness (times the third power of the standard deviation) and on the kurtosis (times the square of the
variance). -/
noncomputable def skewShift (Y : Ω → ℝ) (P : Measure Ω) (ω : Ω) : ℝ :=
  (Y ω - ∫ ω, Y ω ∂P) ^ 3 - 3 * Var[Y; P] * (Y ω - ∫ ω, Y ω ∂P) - 3 / 2 * skewOf Y P * √Var[Y; P] * (Y ω - ∫ ω, Y ω ∂P) ^ 2
noncomputable def kurtShift (Y : Ω → ℝ) (P : Measure Ω) (ω : Ω) : ℝ :=
  (Y ω - ∫ ω, Y ω ∂P) ^ 4 - 4 * momentOf Y P 3 * (Y ω - ∫ ω, Y ω ∂P) - 2 * kurtOf Y P * Var[Y; P] * (Y ω - ∫ ω, Y ω ∂P) ^ 2

theorem dev_memLp {Y : Ω → ℝ} {k : ℕ} {q : ℝ≥0∞} (hq : q = ((2 * k : ℕ) : ℝ≥0∞)) (h : MemLp Y q P) (c : ℝ) :
    MemLp (fun ω => (Y ω - c) ^ k) 2 P := by
  subst hq
  refine (memLp_two_iff_integrable_sq ((h.sub (memLp_const c)).1.pow k)).2 ?_
  refine (integrable_dev (k := 2 * k) h c).congr (Eventually.of_forall fun ω => ?_)
  show (Y ω - c) ^ (2 * k) = ((Y ω - c) ^ k) ^ 2
  rw [← pow_mul, mul_comm]

theorem skewShift_memLp {Y : Ω → ℝ} (h6 : MemLp Y 6 P) : MemLp (skewShift Y P) 2 P := by
  have h2 : MemLp Y 2 P := h6.mono_exponent (by norm_num)
  have h4 : MemLp Y 4 P := h6.mono_exponent (by norm_num)
  exact ((dev_memLp (k := 3) (by norm_num) h6 _).sub ((h2.sub (memLp_const _)).const_mul _)).sub
    ((dev_memLp (k := 2) (by norm_num) h4 _).const_mul _)

theorem kurtShift_memLp {Y : Ω → ℝ} (h8 : MemLp Y 8 P) : MemLp (kurtShift Y P) 2 P := by
  have h2 : MemLp Y 2 P := h8.mono_exponent (by norm_num)
  have h4 : MemLp Y 4 P := h8.mono_exponent (by norm_num)
  exact ((dev_memLp (k := 4) (by norm_num) h8 _).sub ((h2.sub (memLp_const _)).const_mul _)).sub
    ((dev_memLp (k := 2) (by norm_num) h4 _).const_mul _)

omit [IsProbabilityMeasure P] in
theorem integral_three {f g h : Ω → ℝ} (hf : Integrable f P) (hg : Integrable g P) (hh : Integrable h P) (c d : ℝ) :
    ∫ ω, (f ω - c * g ω - d * h ω) ∂P = ∫ ω, f ω ∂P - c * ∫ ω, g ω ∂P - d * ∫ ω, h ω ∂P := by
  have e1 : Integrable (fun ω => f ω - c * g ω) P := hf.sub (hg.const_mul c)
  rw [integral_sub e1 (hh.const_mul d), integral_sub hf (hg.const_mul c), integral_const_mul, integral_const_mul]

section
variable {Z : ℕ → Ω → ℝ}

/-- The central limit theorem for the variance about the expectation. -/
theorem clt_avg_two (hZ : Sample Z P) (h4 : MemLp (Z 0) 4 P) :
    TendstoInDistribution (fun (n : ℕ) ω => √n * (avg (Z · ω) 2 (∫ ω, Z 0 ω ∂P) n - Var[Z 0; P])) atTop
      (fun x => √Var[fun ω => (Z 0 ω - ∫ ω, Z 0 ω ∂P) ^ 2; P] * x) (fun _ => P) (gaussianReal 0 1) := by
  have h2 : MemLp (Z 0) 2 P := h4.mono_exponent (by norm_num)
  have zq : Sample (fun i ω => (Z i ω - ∫ ω, Z 0 ω ∂P) ^ 2) P := hZ.map (g := fun x => (x - ∫ ω, Z 0 ω ∂P) ^ 2) (by fun_prop)
  have hc := clt_mean zq (dev_memLp (k := 2) (by norm_num) h4 _)
  simp only [mean_firstN] at hc
  rw [variance_eq_integral h2.1.aemeasurable]
  exact hc

theorem clt_avg_one (hZ : Sample Z P) (h2 : MemLp (Z 0) 2 P) :
    ∃ A : ℕ → Ω → ℝ, (TendstoInDistribution A atTop (fun x => √Var[Z 0; P] * x) (fun _ => P) (gaussianReal 0 1))
      ∧ (∀ n, AEMeasurable (A n) P) ∧ ∀ n : ℕ, 1 ≤ n → ∀ ω, A n ω = √n * avg (Z · ω) 1 (∫ ω, Z 0 ω ∂P) n := by
  refine ⟨_, clt_mean hZ h2, fun n => ((measurable_mean hZ n).sub_const _).const_mul _, fun n hn ω => ?_⟩
  simp only [mean_sub _ (∫ ω, Z 0 ω ∂P) (show n ≠ 0 by omega)]

/-- The central limit theorem for the fourth central moment, compared with the square of the variance. -/
theorem clt_kurt (hZ : Sample Z P) (h8 : MemLp (Z 0) 8 P) (hV : Var[Z 0; P] ≠ 0) :
    ∃ W : ℕ → Ω → ℝ, TendstoInDistribution W atTop (fun x => √Var[kurtShift (Z 0) P; P] * x) (fun _ => P) (gaussianReal 0 1)
      ∧ ∀ n : ℕ, 1 ≤ n → ∀ ω, W n ω = √n * (Spec.central 4 (firstN (Z · ω) n) / n
          - kurtOf (Z 0) P * Spec.variance (firstN (Z · ω) n) ^ 2) := by
  have h2 : MemLp (Z 0) 2 P := h8.mono_exponent (by norm_num)
  have h3 : MemLp (Z 0) 3 P := h8.mono_exponent (by norm_num)
  have h4 : MemLp (Z 0) 4 P := h8.mono_exponent (by norm_num)
  have i1 : Integrable (Z 0) P := h2.integrable (by norm_num)
  have hVi : Var[Z 0; P] = momentOf (Z 0) P 2 := variance_eq_integral h2.1.aemeasurable
  have h40 : momentOf (Z 0) P 4 = kurtOf (Z 0) P * Var[Z 0; P] ^ 2 := by rw [kurtOf]; field_simp
  have hone := momentOf_one i1
  have hd4 := integrable_dev (k := 4) h4 (∫ ω, Z 0 ω ∂P)
  have hd2 := integrable_dev (k := 2) h2 (∫ ω, Z 0 ω ∂P)
  have hd1 : Integrable (fun ω => Z 0 ω - ∫ ω, Z 0 ω ∂P) P := i1.sub (integrable_const _)
  have a1 := avg_one hZ.iid i1
  have a2 := avg_law hZ.iid 2 _ hd2
  have a3 := avg_law hZ.iid 3 _ (integrable_dev (k := 3) h3 (∫ ω, Z 0 ω ∂P))
  rw [show ∫ ω, (Z 0 ω - ∫ ω, Z 0 ω ∂P) ^ 2 ∂P = Var[Z 0; P] from hVi.symm] at a2
  have hψ := kurtShift_memLp h8
  obtain ⟨A, hA, hAm, eA⟩ := clt_avg_one hZ h2
  have hB := clt_avg_two hZ h4
  have hEψ : ∫ ω, kurtShift (Z 0) P ω ∂P = -momentOf (Z 0) P 4 := by
    simp only [kurtShift]
    rw [integral_three hd4 hd1 hd2]
    have e1 : ∫ ω, (Z 0 ω - ∫ ω, Z 0 ω ∂P) ∂P = 0 := by simpa only [momentOf, pow_one] using hone
    have e2 : ∫ ω, (Z 0 ω - ∫ ω, Z 0 ω ∂P) ^ 2 ∂P = Var[Z 0; P] := hVi.symm
    have e4 : ∫ ω, (Z 0 ω - ∫ ω, Z 0 ω ∂P) ^ 4 ∂P = momentOf (Z 0) P 4 := rfl
    rw [e1, e2, e4, h40]
    ring
  set m3 := momentOf (Z 0) P 3 with hm3
  set m4 := momentOf (Z 0) P 4 with hm4
  set κ := kurtOf (Z 0) P with hκ
  set V := Var[Z 0; P] with hVdef
  have zp : Sample (fun i ω => (Z i ω - ∫ ω, Z 0 ω ∂P) ^ 4 - 4 * m3 * (Z i ω - ∫ ω, Z 0 ω ∂P) - 2 * κ * V * (Z i ω - ∫ ω, Z 0 ω ∂P) ^ 2) P :=
    hZ.map (g := fun x => (x - ∫ ω, Z 0 ω ∂P) ^ 4 - 4 * m3 * (x - ∫ ω, Z 0 ω ∂P) - 2 * κ * V * (x - ∫ ω, Z 0 ω ∂P) ^ 2) (by fun_prop)
  have hc := clt_mean zp hψ
  rw [show ∫ ω, ((Z 0 ω - ∫ ω, Z 0 ω ∂P) ^ 4 - 4 * m3 * (Z 0 ω - ∫ ω, Z 0 ω ∂P) - 2 * κ * V * (Z 0 ω - ∫ ω, Z 0 ω ∂P) ^ 2) ∂P = -m4 from hEψ] at hc
  change TendstoInDistribution _ atTop (fun x => √Var[kurtShift (Z 0) P; P] * x) _ _ at hc
  set μ := ∫ ω, Z 0 ω ∂P with hμ
  have m := fun k n => measurable_avg hZ k μ n
  -- the remainders
  have hm1 : ∀ n, AEMeasurable (fun ω => -4 * (avg (Z · ω) 3 μ n - m3) + 6 * avg (Z · ω) 1 μ n * avg (Z · ω) 2 μ n - 3 * avg (Z · ω) 1 μ n ^ 3
      + κ * (2 * avg (Z · ω) 2 μ n * avg (Z · ω) 1 μ n - avg (Z · ω) 1 μ n ^ 3)) P := fun n =>
    ((((((m 3 n).sub_const m3).const_mul (-4)).add (((m 1 n).const_mul 6).mul (m 2 n))).sub (((m 1 n).pow_const 3).const_mul 3))).add
      (((((m 2 n).const_mul 2).mul (m 1 n)).sub ((m 1 n).pow_const 3)).const_mul κ)
  have hl1 : ∀ᵐ ω ∂P, Tendsto (fun n => -4 * (avg (Z · ω) 3 μ n - m3) + 6 * avg (Z · ω) 1 μ n * avg (Z · ω) 2 μ n - 3 * avg (Z · ω) 1 μ n ^ 3
      + κ * (2 * avg (Z · ω) 2 μ n * avg (Z · ω) 1 μ n - avg (Z · ω) 1 μ n ^ 3)) atTop (𝓝 0) := by
    filter_upwards [a1, a2, a3] with ω b1 b2 b3
    have := (((((b3.sub_const m3).const_mul (-4)).add ((b1.const_mul 6).mul b2)).sub ((b1.pow 3).const_mul 3))).add
      ((((b2.const_mul 2).mul b1).sub (b1.pow 3)).const_mul κ)
    rw [show ∫ ω, (Z 0 ω - μ) ^ 3 ∂P = m3 from rfl,
      show -4 * (m3 - m3) + 6 * 0 * V - 3 * 0 ^ 3 + κ * (2 * V * 0 - 0 ^ 3) = (0 : ℝ) by ring] at this
    exact this
  have hm2 : ∀ n, AEMeasurable (fun ω => -κ * (avg (Z · ω) 2 μ n - V)) P := fun n => ((m 2 n).sub_const V).const_mul _
  have hl2 : ∀ᵐ ω ∂P, Tendsto (fun n => -κ * (avg (Z · ω) 2 μ n - V)) atTop (𝓝 0) := by
    filter_upwards [a2] with ω b2
    have := (b2.sub_const V).const_mul (-κ)
    rwa [sub_self, mul_zero] at this
  have hd := (hc.add_of_tendstoInMeasure_const (vanish_mul hA hm1 hl1) fun n => (hAm n).mul (hm1 n))
  simp only [add_zero] at hd
  have hd := (hd.add_of_tendstoInMeasure_const (vanish_mul hB hm2 hl2) fun n => (((m 2 n).sub_const V).const_mul _).mul (hm2 n))
  simp only [add_zero] at hd
  refine ⟨_, hd, fun n hn ω => ?_⟩
  have hn0 : n ≠ 0 := by omega
  have e1 : Spec.mean (firstN (fun i => (Z i ω - μ) ^ 4 - 4 * m3 * (Z i ω - μ) - 2 * κ * V * (Z i ω - μ) ^ 2) n)
      = avg (Z · ω) 4 μ n - 4 * m3 * avg (Z · ω) 1 μ n - 2 * κ * V * avg (Z · ω) 2 μ n := by
    rw [mean_firstN, avg, avg, avg, Finset.sum_sub_distrib, Finset.sum_sub_distrib, ← Finset.mul_sum, ← Finset.mul_sum]
    simp only [pow_one]
    ring
  show √n * (Spec.mean (firstN (fun i => (Z i ω - μ) ^ 4 - 4 * m3 * (Z i ω - μ) - 2 * κ * V * (Z i ω - μ) ^ 2) n) - -m4)
    + A n ω * (-4 * (avg (Z · ω) 3 μ n - m3) + 6 * avg (Z · ω) 1 μ n * avg (Z · ω) 2 μ n - 3 * avg (Z · ω) 1 μ n ^ 3
      + κ * (2 * avg (Z · ω) 2 μ n * avg (Z · ω) 1 μ n - avg (Z · ω) 1 μ n ^ 3))
    + √n * (avg (Z · ω) 2 μ n - V) * (-κ * (avg (Z · ω) 2 μ n - V)) = _
  have e2 : Spec.variance (firstN (Z · ω) n) = avg (Z · ω) 2 μ n - avg (Z · ω) 1 μ n ^ 2 := by
    rw [Spec.variance, firstN_length, central_two_avg _ μ hn0]
  rw [eA n hn ω, e1, e2, central_four_avg (Z · ω) μ hn0, h40]
  ring

/-- C176: the limit of the kurtosis. -/
theorem C176_kurtosis (hε : 0 < ε) (hZ : Sample Z P) (h8 : MemLp (Z 0) 8 P) (hV : Var[Z 0; P] ≠ 0) (hS : Var[kurtShift (Z 0) P; P] ≠ 0)
    {w : ℕ → ℕ} (hw : ∀ n, n ^ 2 < 2 ^ w n) (t : ℝ) :
    Tendsto (fun n : ℕ => P {ω | ∃ k : ℝ, (kurtosisOf ε (w n) (Z · ω) n).kurtosis = X.fin k
        ∧ √n * (k - kurtOf (Z 0) P) ≤ t * (√Var[kurtShift (Z 0) P; P] / Var[Z 0; P] ^ 2)}) atTop
      (𝓝 (gaussianReal 0 1 (Set.Iic t))) := by
  have h2 : MemLp (Z 0) 2 P := h8.mono_exponent (by norm_num)
  have h3 : MemLp (Z 0) 3 P := h8.mono_exponent (by norm_num)
  have h4 : MemLp (Z 0) 4 P := h8.mono_exponent (by norm_num)
  have hS0 : 0 < Var[kurtShift (Z 0) P; P] := lt_of_le_of_ne (ProbabilityTheory.variance_nonneg _ _) hS.symm
  obtain ⟨W, hW, e⟩ := clt_kurt hZ h8 hV
  have hpos : 0 < momentOf (Z 0) P 4 := fourth_pos h4 hV
  have a1 := avg_one hZ.iid (h2.integrable (by norm_num))
  have a2 := avg_law hZ.iid 2 _ (integrable_dev (k := 2) h2 (∫ ω, Z 0 ω ∂P))
  have a3 := avg_law hZ.iid 3 _ (integrable_dev (k := 3) h3 (∫ ω, Z 0 ω ∂P))
  have a4 := avg_law hZ.iid 4 _ (integrable_dev (k := 4) h4 (∫ ω, Z 0 ω ∂P))
  set s := √Var[kurtShift (Z 0) P; P] with hs
  have hs0 : 0 < s := Real.sqrt_pos.2 hS0
  set V := Var[Z 0; P] with hVdef
  set κ := kurtOf (Z 0) P with hκ
  set m4 := momentOf (Z 0) P 4 with hm4
  have key := threshold_limit hs0 hW (t := t) (V := fun n ω => t * (s / V ^ 2) * Spec.variance (firstN (Z · ω) n) ^ 2)
    (fun n => ((measurable_variance hZ n).pow_const 2).const_mul _) (by
      filter_upwards [variance_ae hZ h2] with ω hv
      have := (hv.pow 2).const_mul (t * (s / V ^ 2))
      rwa [show t * (s / V ^ 2) * V ^ 2 = t * s by field_simp] at this)
  have hmeas : ∀ n : ℕ, AEMeasurable (fun ω => Spec.central 4 (firstN (Z · ω) n) / n) P := by
    intro n
    rcases Nat.eq_zero_or_pos n with rfl | hn
    · simp
    · simp only [fun ω => central_four_avg (Z · ω) 0 (n := n) (by omega)]
      have m := fun k => measurable_avg hZ k 0 n
      exact (((m 4).sub (((m 1).const_mul 4).mul (m 3))).add ((((m 1).pow_const 2).const_mul 6).mul (m 2))).sub
        (((m 1).pow_const 4).const_mul 3)
  have hl4 : ∀ᵐ ω ∂P, Tendsto (fun n : ℕ => Spec.central 4 (firstN (Z · ω) n) / n) atTop (𝓝 m4) := by
    filter_upwards [a1, a2, a3, a4] with ω b1 b2 b3 b4
    exact fourth_limit b1 b2 b3 b4
  have hin := tendstoInMeasure_of_tendsto_ae (fun n => (hmeas n).aestronglyMeasurable) hl4
  rw [tendstoInMeasure_iff_norm] at hin
  refine prob_congr (measure_ne_top _ _) key (hin (m4 / 2) (by linarith)) ?_
  have e2 : ∀ᶠ n : ℕ in atTop, ε / (m4 / 2) ≤ (n : ℝ) := tendsto_natCast_atTop_atTop.eventually_ge_atTop _
  filter_upwards [eventually_ge_atTop 1, e2] with n hn he ω hω
  have hω : ¬ m4 / 2 ≤ ‖Spec.central 4 (firstN (Z · ω) n) / n - m4‖ := hω
  rw [not_le, Real.norm_eq_abs, abs_lt] at hω
  have hn0 : (0 : ℝ) < n := by exact_mod_cast hn
  have hsc := sinceClear_pushFirst (Z · ω) n
  have hc4 : ε ≤ Spec.central 4 (firstN (Z · ω) n) := by
    have h1 : m4 / 2 < Spec.central 4 (firstN (Z · ω) n) / n := by linarith
    rw [lt_div_iff₀ hn0] at h1
    rw [div_le_iff₀ (by linarith)] at he
    linarith
  obtain ⟨hk, hk1⟩ := (C04_kurtosis (w := w n) hε (pushFirst (Z · ω) n) (by rw [hsc, firstN_length, ← pow_two]; exact hw n)).2
    (by rw [hsc]; exact hc4)
  rw [hsc] at hk hk1
  set v := Spec.variance (firstN (Z · ω) n) with hvdef
  have hv0 : v ≠ 0 := by
    intro h0
    have : Spec.kurtosis (firstN (Z · ω) n) = 0 := by
      rw [Spec.kurtosis, ← hvdef, h0]; simp
    rw [this] at hk1
    linarith
  have hv2 : 0 < v ^ 2 := by positivity
  have hiff : W n ω ≤ t * (s / V ^ 2) * v ^ 2 ↔ √n * (Spec.kurtosis (firstN (Z · ω) n) - κ) ≤ t * (s / V ^ 2) := by
    rw [← div_le_iff₀ hv2, e n hn ω, Spec.kurtosis, ← hvdef, firstN_length]
    rw [show √(n : ℝ) * (Spec.central 4 (firstN (Z · ω) n) / n - κ * v ^ 2) / v ^ 2
      = √n * (Spec.central 4 (firstN (Z · ω) n) / n / v ^ 2 - κ) by field_simp]
  show W n ω ≤ t * (s / V ^ 2) * v ^ 2 ↔ ∃ k : ℝ, (kurtosisOf ε (w n) (Z · ω) n).kurtosis = X.fin k ∧ √n * (k - κ) ≤ t * (s / V ^ 2)
  rw [hiff, show (kurtosisOf ε (w n) (Z · ω) n).kurtosis = _ from hk]
  constructor
  · intro h
    exact ⟨_, rfl, h⟩
  · rintro ⟨k, h1, h2⟩
    rw [X.fin_inj] at h1
    rw [h1]; exact h2

/-- The central limit theorem for the third central moment, compared with the third power of the standard deviation. -/
theorem clt_skew (hZ : Sample Z P) (h6 : MemLp (Z 0) 6 P) (hV : Var[Z 0; P] ≠ 0) :
    ∃ W : ℕ → Ω → ℝ, TendstoInDistribution W atTop (fun x => √Var[skewShift (Z 0) P; P] * x) (fun _ => P) (gaussianReal 0 1)
      ∧ ∀ n : ℕ, 1 ≤ n → ∀ ω, W n ω = √n * (Spec.central 3 (firstN (Z · ω) n) / n
          - skewOf (Z 0) P * √(Spec.variance (firstN (Z · ω) n)) ^ 3) := by
  have h2 : MemLp (Z 0) 2 P := h6.mono_exponent (by norm_num)
  have h3 : MemLp (Z 0) 3 P := h6.mono_exponent (by norm_num)
  have h4 : MemLp (Z 0) 4 P := h6.mono_exponent (by norm_num)
  have i1 : Integrable (Z 0) P := h2.integrable (by norm_num)
  have hV0 : 0 < Var[Z 0; P] := lt_of_le_of_ne (ProbabilityTheory.variance_nonneg _ _) hV.symm
  have hVi : Var[Z 0; P] = momentOf (Z 0) P 2 := variance_eq_integral h2.1.aemeasurable
  have h30 : momentOf (Z 0) P 3 = skewOf (Z 0) P * √Var[Z 0; P] ^ 3 := by
    have := (pow_pos (Real.sqrt_pos.2 hV0) 3).ne'
    rw [skewOf]; field_simp
  have hone := momentOf_one i1
  have hd3 := integrable_dev (k := 3) h3 (∫ ω, Z 0 ω ∂P)
  have hd2 := integrable_dev (k := 2) h2 (∫ ω, Z 0 ω ∂P)
  have hd1 : Integrable (fun ω => Z 0 ω - ∫ ω, Z 0 ω ∂P) P := i1.sub (integrable_const _)
  have a1 := avg_one hZ.iid i1
  have a2 := avg_law hZ.iid 2 _ hd2
  rw [show ∫ ω, (Z 0 ω - ∫ ω, Z 0 ω ∂P) ^ 2 ∂P = Var[Z 0; P] from hVi.symm] at a2
  have hva := variance_ae hZ h2
  have hψ := skewShift_memLp h6
  obtain ⟨A, hA, hAm, eA⟩ := clt_avg_one hZ h2
  have hB := clt_avg_two hZ h4
  have hσσ : √Var[Z 0; P] ^ 2 = Var[Z 0; P] := Real.sq_sqrt hV0.le
  have hEψ : ∫ ω, skewShift (Z 0) P ω ∂P = -(skewOf (Z 0) P * √Var[Z 0; P] ^ 3 / 2) := by
    simp only [skewShift]
    rw [integral_three hd3 hd1 hd2]
    have e1 : ∫ ω, (Z 0 ω - ∫ ω, Z 0 ω ∂P) ∂P = 0 := by simpa only [momentOf, pow_one] using hone
    have e2 : ∫ ω, (Z 0 ω - ∫ ω, Z 0 ω ∂P) ^ 2 ∂P = √Var[Z 0; P] ^ 2 := by rw [hσσ]; exact hVi.symm
    have e3 : ∫ ω, (Z 0 ω - ∫ ω, Z 0 ω ∂P) ^ 3 ∂P = momentOf (Z 0) P 3 := rfl
    rw [e1, e2, e3, h30]
    ring
  set γ := skewOf (Z 0) P with hγ
  set V := Var[Z 0; P] with hVdef
  set σ := √V with hσ
  have hσ0 : 0 < σ := Real.sqrt_pos.2 hV0
  have zp : Sample (fun i ω => (Z i ω - ∫ ω, Z 0 ω ∂P) ^ 3 - 3 * V * (Z i ω - ∫ ω, Z 0 ω ∂P)
      - 3 / 2 * γ * σ * (Z i ω - ∫ ω, Z 0 ω ∂P) ^ 2) P :=
    hZ.map (g := fun x => (x - ∫ ω, Z 0 ω ∂P) ^ 3 - 3 * V * (x - ∫ ω, Z 0 ω ∂P) - 3 / 2 * γ * σ * (x - ∫ ω, Z 0 ω ∂P) ^ 2) (by fun_prop)
  have hc := clt_mean zp hψ
  rw [show ∫ ω, ((Z 0 ω - ∫ ω, Z 0 ω ∂P) ^ 3 - 3 * V * (Z 0 ω - ∫ ω, Z 0 ω ∂P) - 3 / 2 * γ * σ * (Z 0 ω - ∫ ω, Z 0 ω ∂P) ^ 2) ∂P
    = -(γ * σ ^ 3 / 2) from hEψ] at hc
  change TendstoInDistribution _ atTop (fun x => √Var[skewShift (Z 0) P; P] * x) _ _ at hc
  set μ := ∫ ω, Z 0 ω ∂P with hμ
  have m := fun k n => measurable_avg hZ k μ n
  -- the difference quotient of the third power of the standard deviation
  let q : ℕ → Ω → ℝ := fun n ω => (√(Spec.variance (firstN (Z · ω) n)) ^ 2 + √(Spec.variance (firstN (Z · ω) n)) * σ + σ ^ 2)
    / (√(Spec.variance (firstN (Z · ω) n)) + σ)
  have hqm : ∀ n, AEMeasurable (q n) P := fun n =>
    have hs := (measurable_variance hZ n).sqrt
    (((hs.pow_const 2).add (hs.mul_const σ)).add_const _).div (hs.add_const σ)
  have hql : ∀ᵐ ω ∂P, Tendsto (fun n => q n ω) atTop (𝓝 (3 / 2 * σ)) := by
    filter_upwards [hva] with ω hv
    have hs := (Real.continuous_sqrt.tendsto _).comp hv
    rw [← hσ] at hs
    have := (((hs.pow 2).add (hs.mul_const σ)).add_const (σ ^ 2)).div (hs.add_const σ) (by positivity)
    rw [show (σ ^ 2 + σ * σ + σ ^ 2) / (σ + σ) = 3 / 2 * σ by field_simp; ring] at this
    exact this
  have hm1 : ∀ n, AEMeasurable (fun ω => 2 * avg (Z · ω) 1 μ n ^ 2 - 3 * (avg (Z · ω) 2 μ n - V) + γ * (avg (Z · ω) 1 μ n * q n ω)) P := fun n =>
    ((((m 1 n).pow_const 2).const_mul 2).sub (((m 2 n).sub_const V).const_mul 3)).add (((m 1 n).mul (hqm n)).const_mul γ)
  have hl1 : ∀ᵐ ω ∂P, Tendsto (fun n => 2 * avg (Z · ω) 1 μ n ^ 2 - 3 * (avg (Z · ω) 2 μ n - V) + γ * (avg (Z · ω) 1 μ n * q n ω))
      atTop (𝓝 0) := by
    filter_upwards [a1, a2, hql] with ω b1 b2 b3
    have := (((b1.pow 2).const_mul 2).sub ((b2.sub_const V).const_mul 3)).add ((b1.mul b3).const_mul γ)
    rw [show 2 * 0 ^ 2 - 3 * (V - V) + γ * (0 * (3 / 2 * σ)) = (0 : ℝ) by ring] at this
    exact this
  have hm2 : ∀ n, AEMeasurable (fun ω => -γ * (q n ω - 3 / 2 * σ)) P := fun n => ((hqm n).sub_const _).const_mul _
  have hl2 : ∀ᵐ ω ∂P, Tendsto (fun n => -γ * (q n ω - 3 / 2 * σ)) atTop (𝓝 0) := by
    filter_upwards [hql] with ω b3
    have := (b3.sub_const (3 / 2 * σ)).const_mul (-γ)
    rwa [sub_self, mul_zero] at this
  have hd := (hc.add_of_tendstoInMeasure_const (vanish_mul hA hm1 hl1) fun n => (hAm n).mul (hm1 n))
  simp only [add_zero] at hd
  have hd := (hd.add_of_tendstoInMeasure_const (vanish_mul hB hm2 hl2) fun n => (((m 2 n).sub_const V).const_mul _).mul (hm2 n))
  simp only [add_zero] at hd
  refine ⟨_, hd, fun n hn ω => ?_⟩
  have hn0 : n ≠ 0 := by omega
  have e1 : Spec.mean (firstN (fun i => (Z i ω - μ) ^ 3 - 3 * V * (Z i ω - μ) - 3 / 2 * γ * σ * (Z i ω - μ) ^ 2) n)
      = avg (Z · ω) 3 μ n - 3 * V * avg (Z · ω) 1 μ n - 3 / 2 * γ * σ * avg (Z · ω) 2 μ n := by
    rw [mean_firstN, avg, avg, avg, Finset.sum_sub_distrib, Finset.sum_sub_distrib, ← Finset.mul_sum, ← Finset.mul_sum]
    simp only [pow_one]
    ring
  show √n * (Spec.mean (firstN (fun i => (Z i ω - μ) ^ 3 - 3 * V * (Z i ω - μ) - 3 / 2 * γ * σ * (Z i ω - μ) ^ 2) n) - -(γ * σ ^ 3 / 2))
    + A n ω * (2 * avg (Z · ω) 1 μ n ^ 2 - 3 * (avg (Z · ω) 2 μ n - V) + γ * (avg (Z · ω) 1 μ n * q n ω))
    + √n * (avg (Z · ω) 2 μ n - V) * (-γ * (q n ω - 3 / 2 * σ)) = _
  have e2 : Spec.variance (firstN (Z · ω) n) = avg (Z · ω) 2 μ n - avg (Z · ω) 1 μ n ^ 2 := by
    rw [Spec.variance, firstN_length, central_two_avg _ μ hn0]
  have hr : √(Spec.variance (firstN (Z · ω) n)) ^ 2 = avg (Z · ω) 2 μ n - avg (Z · ω) 1 μ n ^ 2 := by
    rw [← e2]; exact Real.sq_sqrt (Props.variance_nonneg _)
  have hr0 := Real.sqrt_nonneg (Spec.variance (firstN (Z · ω) n))
  have hq : √(Spec.variance (firstN (Z · ω) n)) ^ 3 - σ ^ 3 = (avg (Z · ω) 2 μ n - avg (Z · ω) 1 μ n ^ 2 - V) * q n ω := by
    rw [← hr, ← hσσ]
    simp only [q]
    generalize √(Spec.variance (firstN (Z · ω) n)) = r at *
    have : r + σ ≠ 0 := by positivity
    field_simp
    ring
  rw [eA n hn ω, e1, central_three_avg (Z · ω) μ hn0, eq_add_of_sub_eq hq, ← hσσ]
  ring

/-- C176: the limit of the skewness, if it is positive. -/
theorem C176_skewness (hε : 0 < ε) (hZ : Sample Z P) (h6 : MemLp (Z 0) 6 P) (h3 : 0 < momentOf (Z 0) P 3) (hS : Var[skewShift (Z 0) P; P] ≠ 0)
    {w : ℕ → ℕ} (hw : ∀ n, n < 2 ^ w n) (t : ℝ) :
    Tendsto (fun n : ℕ => P {ω | ∃ g : ℝ, skewResult ε (w n) (Z · ω) n = X.fin g
        ∧ √n * (g - skewOf (Z 0) P) ≤ t * (√Var[skewShift (Z 0) P; P] / √Var[Z 0; P] ^ 3)}) atTop
      (𝓝 (gaussianReal 0 1 (Set.Iic t))) := by
  have h2 : MemLp (Z 0) 2 P := h6.mono_exponent (by norm_num)
  have hl3 : MemLp (Z 0) 3 P := h6.mono_exponent (by norm_num)
  have hV : Var[Z 0; P] ≠ 0 := by
    intro h0
    have : momentOf (Z 0) P 3 = 0 := by
      rw [momentOf, integral_congr_ae (g := fun _ => (0 : ℝ)), integral_zero]
      filter_upwards [ae_eq_integral_of_variance_eq_zero h2 h0] with ω h
      rw [h]; simp
    exact h3.ne' this
  have hV0 : 0 < Var[Z 0; P] := lt_of_le_of_ne (ProbabilityTheory.variance_nonneg _ _) hV.symm
  have hS0 : 0 < Var[skewShift (Z 0) P; P] := lt_of_le_of_ne (ProbabilityTheory.variance_nonneg _ _) hS.symm
  obtain ⟨W, hW, e⟩ := clt_skew hZ h6 hV
  have a1 := avg_one hZ.iid (h2.integrable (by norm_num))
  have a2 := avg_law hZ.iid 2 _ (integrable_dev (k := 2) h2 (∫ ω, Z 0 ω ∂P))
  have a3 := avg_law hZ.iid 3 _ (integrable_dev (k := 3) hl3 (∫ ω, Z 0 ω ∂P))
  set s := √Var[skewShift (Z 0) P; P] with hs
  have hs0 : 0 < s := Real.sqrt_pos.2 hS0
  set σ := √Var[Z 0; P] with hσ
  have hσ0 : 0 < σ := Real.sqrt_pos.2 hV0
  set γ := skewOf (Z 0) P with hγ
  set m3 := momentOf (Z 0) P 3 with hm3
  have key := threshold_limit hs0 hW (t := t) (V := fun n ω => t * (s / σ ^ 3) * √(Spec.variance (firstN (Z · ω) n)) ^ 3)
    (fun n => ((measurable_variance hZ n).sqrt.pow_const 3).const_mul _) (by
      filter_upwards [variance_ae hZ h2] with ω hv
      have := (((Real.continuous_sqrt.tendsto _).comp hv).pow 3).const_mul (t * (s / σ ^ 3))
      rw [← hσ, show t * (s / σ ^ 3) * σ ^ 3 = t * s by field_simp] at this
      exact this)
  have hmeas : ∀ n : ℕ, AEMeasurable (fun ω => Spec.central 3 (firstN (Z · ω) n) / n) P := by
    intro n
    rcases Nat.eq_zero_or_pos n with rfl | hn
    · simp
    · simp only [fun ω => central_three_avg (Z · ω) 0 (n := n) (by omega)]
      have m := fun k => measurable_avg hZ k 0 n
      exact ((m 3).sub (((m 1).const_mul 3).mul (m 2))).add (((m 1).pow_const 3).const_mul 2)
  have hl : ∀ᵐ ω ∂P, Tendsto (fun n : ℕ => Spec.central 3 (firstN (Z · ω) n) / n) atTop (𝓝 m3) := by
    filter_upwards [a1, a2, a3] with ω b1 b2 b3
    exact third_limit b1 b2 b3
  have hin := tendstoInMeasure_of_tendsto_ae (fun n => (hmeas n).aestronglyMeasurable) hl
  rw [tendstoInMeasure_iff_norm] at hin
  refine prob_congr (measure_ne_top _ _) key (hin (m3 / 2) (by linarith)) ?_
  have e2 : ∀ᶠ n : ℕ in atTop, ε / (m3 / 2) ≤ (n : ℝ) := tendsto_natCast_atTop_atTop.eventually_ge_atTop _
  filter_upwards [eventually_ge_atTop 1, e2] with n hn he ω hω
  have hω : ¬ m3 / 2 ≤ ‖Spec.central 3 (firstN (Z · ω) n) / n - m3‖ := hω
  rw [not_le, Real.norm_eq_abs, abs_lt] at hω
  have hn0 : (0 : ℝ) < n := by exact_mod_cast hn
  have hc3 : ε ≤ Spec.central 3 (firstN (Z · ω) n) := by
    have h1 : m3 / 2 < Spec.central 3 (firstN (Z · ω) n) / n := by linarith
    rw [lt_div_iff₀ hn0] at h1
    rw [div_le_iff₀ (by linarith)] at he
    linarith
  set r := √(Spec.variance (firstN (Z · ω) n)) with hr
  have hr0 : r ≠ 0 := (Real.sqrt_pos.2 (variance_pos_of_third hε hc3)).ne'
  have hr3 : 0 < r ^ 3 := pow_pos (Real.sqrt_pos.2 (variance_pos_of_third hε hc3)) 3
  have hiff : W n ω ≤ t * (s / σ ^ 3) * r ^ 3 ↔ √n * (Spec.skewness (firstN (Z · ω) n) - γ) ≤ t * (s / σ ^ 3) := by
    rw [← div_le_iff₀ hr3, e n hn ω, Spec.skewness, ← hr, firstN_length]
    rw [show √(n : ℝ) * (Spec.central 3 (firstN (Z · ω) n) / n - γ * r ^ 3) / r ^ 3
      = √n * (Spec.central 3 (firstN (Z · ω) n) / n / r ^ 3 - γ) by field_simp]
  show W n ω ≤ t * (s / σ ^ 3) * r ^ 3 ↔ ∃ g : ℝ, skewResult ε (w n) (Z · ω) n = X.fin g ∧ √n * (g - γ) ≤ t * (s / σ ^ 3)
  rw [hiff, skewResult_eq hε (hw n), if_neg (not_lt.2 hc3)]
  constructor
  · intro h
    exact ⟨_, rfl, h⟩
  · rintro ⟨k, h1, h2⟩
    rw [X.fin_inj] at h1
    rw [h1]; exact h2

end

/-! ### Non-vacuity -/

/-- A coin with the sides 1 (probability 3/4) and 5: variance 3, third and fourth central moments 6 and 21; the influences of the two sides are
5 and -27 on the skewness, 11 and -117 on the kurtosis. -/
theorem coinShape :
    let P := Measure.infinitePi fun _ : ℕ => coin (3 / 4) (1 : ℝ) 5
    let Y := fun ω : ℕ → ℝ => ω 0
    IsProbabilityMeasure P ∧ MemLp Y 8 P ∧ Var[Y; P] = 3 ∧ momentOf Y P 3 = 6 ∧ momentOf Y P 4 = 21
    ∧ Var[skewShift Y P; P] = 192 ∧ Var[kurtShift Y P; P] = 3072 := by
  intro P Y
  have h0 : (0 : ℝ) ≤ 3 / 4 := by norm_num
  have h1 : (3 / 4 : ℝ) ≤ 1 := by norm_num
  have hp := coin_prob (a := (1 : ℝ)) (b := 5) h0 h1
  have h8 : MemLp Y 8 P := eval_memLp (coin (3 / 4) (1 : ℝ) 5) (coin_memLp h0 h1 measurable_id' 8)
  have hmean : ∫ ω : ℕ → ℝ, ω 0 ∂P = 2 := by
    refine (coin_moments (a := 1) (b := 5) h0 h1 2).1.trans ?_
    norm_num
  have hvar : Var[Y; P] = 3 := by
    rw [variance_eq_integral h8.1.aemeasurable]
    refine (coin_moments (a := 1) (b := 5) h0 h1 2).2.trans ?_
    norm_num
  have hm3 : momentOf Y P 3 = 6 := by
    refine (coin_moments (a := 1) (b := 5) h0 h1 3).2.trans ?_
    norm_num
  have hm4 : momentOf Y P 4 = 21 := by
    refine (coin_moments (a := 1) (b := 5) h0 h1 4).2.trans ?_
    norm_num
  have hv : ∀ {g : ℝ → ℝ} {S : (ℕ → ℝ) → ℝ}, Measurable g → (S = fun ω => g (ω 0)) → MemLp S 2 P →
      Var[S; P] = 3 / 4 * g 1 ^ 2 + 1 / 4 * g 5 ^ 2 - (3 / 4 * g 1 + 1 / 4 * g 5) ^ 2 := by
    intro g S hg hS hm
    have e1 := eval_integral (coin (3 / 4) (1 : ℝ) 5) hg
    have e2 := eval_integral (coin (3 / 4) (1 : ℝ) 5) (g := fun x => g x ^ 2) (hg.pow_const 2)
    rw [coin_integral h0 h1] at e1 e2
    have e1' : ∫ ω, S ω ∂P = 3 / 4 * g 1 + (1 - 3 / 4) * g 5 := by rw [hS]; exact e1
    have e2' : ∫ ω, (S ^ 2) ω ∂P = 3 / 4 * g 1 ^ 2 + (1 - 3 / 4) * g 5 ^ 2 := by rw [hS]; exact e2
    rw [variance_eq_sub hm, e1', e2']
    ring
  have hr : √(3 : ℝ) * √3 = 3 := Real.mul_self_sqrt (by norm_num)
  have hr0 : √(3 : ℝ) ≠ 0 := by positivity
  have es : skewShift Y P = fun ω => (fun x : ℝ => (x - 2) ^ 3 - 9 * (x - 2) - 3 * (x - 2) ^ 2) (ω 0) := by
    funext ω
    have : 3 / 2 * skewOf Y P * √Var[Y; P] = 3 := by
      rw [skewOf, hm3, hvar, show √(3 : ℝ) ^ 3 = 3 * √3 by rw [pow_succ, pow_two, hr]]
      field_simp
      norm_num
    simp only [skewShift, this]
    show (ω 0 - ∫ ω : ℕ → ℝ, ω 0 ∂P) ^ 3 - 3 * Var[Y; P] * (ω 0 - ∫ ω : ℕ → ℝ, ω 0 ∂P) - 3 * (ω 0 - ∫ ω : ℕ → ℝ, ω 0 ∂P) ^ 2 = _
    rw [hmean, hvar]
    ring
  have ek : kurtShift Y P = fun ω => (fun x : ℝ => (x - 2) ^ 4 - 24 * (x - 2) - 14 * (x - 2) ^ 2) (ω 0) := by
    funext ω
    simp only [kurtShift, kurtOf, hm3, hm4, hvar]
    show (ω 0 - ∫ ω : ℕ → ℝ, ω 0 ∂P) ^ 4 - 4 * 6 * (ω 0 - ∫ ω : ℕ → ℝ, ω 0 ∂P) - 2 * (21 / 3 ^ 2) * 3 * (ω 0 - ∫ ω : ℕ → ℝ, ω 0 ∂P) ^ 2 = _
    rw [hmean]
    ring
  refine ⟨inferInstance, h8, hvar, hm3, hm4, ?_, ?_⟩
  · rw [hv (g := fun x : ℝ => (x - 2) ^ 3 - 9 * (x - 2) - 3 * (x - 2) ^ 2) (by fun_prop) es (skewShift_memLp (h8.mono_exponent (by norm_num)))]
    norm_num
  · rw [hv (g := fun x : ℝ => (x - 2) ^ 4 - 24 * (x - 2) - 14 * (x - 2) ^ 2) (by fun_prop) ek (kurtShift_memLp h8)]
    norm_num

/-- The kurtosis of such throws tends to 7/3, with an error of the order √3072 / 9. -/
example (hε : 0 < ε) (t : ℝ) : ∃ P : Measure (ℕ → ℝ), IsProbabilityMeasure P
    ∧ Tendsto (fun n : ℕ => P {ω | ∃ k : ℝ, (kurtosisOf ε (2 * n) ω n).kurtosis = X.fin k ∧ √n * (k - 7 / 3) ≤ t * (√3072 / 9)}) atTop
      (𝓝 (gaussianReal 0 1 (Set.Iic t)))
    ∧ Tendsto (fun n : ℕ => P {ω | ∃ g : ℝ, skewResult ε n ω n = X.fin g ∧ √n * (g - 6 / √3 ^ 3) ≤ t * (√192 / √3 ^ 3)}) atTop
      (𝓝 (gaussianReal 0 1 (Set.Iic t))) := by
  obtain ⟨hP, h8, hV, h3, h4, hs, hk⟩ := coinShape
  have hp := coin_prob (p := 3 / 4) (a := (1 : ℝ)) (b := 5) (by norm_num) (by norm_num)
  have hZ := normal_sample_eval (coin (3 / 4) (1 : ℝ) 5)
  refine ⟨_, hP, ?_, ?_⟩
  · have := C176_kurtosis (ε := ε) hε hZ h8 (by rw [hV]; norm_num) (by rw [hk]; norm_num) (w := fun n => 2 * n)
      (fun n => by rw [mul_comm, pow_mul]; exact Nat.pow_lt_pow_left Nat.lt_two_pow_self (by norm_num)) t
    rw [hk, kurtOf, hV, h4, show (21 : ℝ) / 3 ^ 2 = 7 / 3 by norm_num, show (3 : ℝ) ^ 2 = 9 by norm_num] at this
    exact this
  · have := C176_skewness (ε := ε) hε hZ (h8.mono_exponent (by norm_num)) (by rw [h3]; norm_num) (by rw [hs]; norm_num) (w := fun n => n)
      (fun n => Nat.lt_two_pow_self) t
    rw [hs, skewOf, hV, h3] at this
    exact this

end Verif.Props
