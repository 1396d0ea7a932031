import Verif.Props.NormalPairs
/-
C174: the correlation of independent variables.
C175: the skewness of data whose third central moment is zero.
-/
namespace Verif.Props
open Filter Topology MeasureTheory ProbabilityTheory Verif.Stochastic Exact Cumulative
open scoped ENNReal

variable {ε : ℝ} {Ω : Type} {mΩ : MeasurableSpace Ω} {P : Measure Ω} [IsProbabilityMeasure P]

/-- A scaled error compared with an estimate of a multiple of its standard deviation. -/
theorem threshold_limit {W V : ℕ → Ω → ℝ} {s : ℝ} (hs : 0 < s)
    (h : TendstoInDistribution W atTop (fun x => s * x) (fun _ => P) (gaussianReal 0 1)) (hm : ∀ n, AEMeasurable (V n) P) {t : ℝ}
    (hl : ∀ᵐ ω ∂P, Tendsto (fun n => V n ω) atTop (𝓝 (t * s))) :
    Tendsto (fun n : ℕ => P {ω | W n ω ≤ V n ω}) atTop (𝓝 (gaussianReal 0 1 (Set.Iic t))) := by
  have hin := tendstoInMeasure_of_tendsto_ae (fun n => (hm n).aestronglyMeasurable) hl
  have h := h.continuous_comp_prodMk_of_tendstoInMeasure_const (g := fun z : ℝ × ℝ => z.1 - z.2) (by fun_prop) hin hm
  have e : ∀ x : ℝ, s * x - t * s = s * (x - t) := by intro x; ring
  have := nullSingletonClass_gaussianReal (μ := 0) (v := 1) one_ne_zero
  have key := prob_le_limit h (t := 0) (by
    refine measure_mono_null (t := {t}) ?_ ((Set.toFinite _).measure_zero _)
    intro x hx
    have hx : s * x - t * s = 0 := hx
    rw [e] at hx
    exact sub_eq_zero.1 ((mul_eq_zero.1 hx).resolve_left hs.ne'))
  have hset : {x : ℝ | s * x - t * s ≤ 0} = Set.Iic t := by
    ext x
    rw [Set.mem_ofPred_eq, Set.mem_Iic, e, ← sub_nonpos (a := x)]
    constructor
    · intro h
      by_contra hc
      have := mul_pos hs (not_le.1 hc)
      linarith
    · intro h
      exact mul_nonpos_of_nonneg_of_nonpos hs.le h
  have key : Tendsto (fun n => P {ω | W n ω - V n ω ≤ 0}) atTop (𝓝 (gaussianReal 0 1 {x : ℝ | s * x - t * s ≤ 0})) := key
  rw [hset] at key
  simpa only [sub_nonpos] using key

/-- A scaled error times something that vanishes. -/
theorem vanish_mul {W V : ℕ → Ω → ℝ} {s : ℝ} (h : TendstoInDistribution W atTop (fun x => s * x) (fun _ => P) (gaussianReal 0 1))
    (hm : ∀ n, AEMeasurable (V n) P) (hl : ∀ᵐ ω ∂P, Tendsto (fun n => V n ω) atTop (𝓝 0)) :
    TendstoInMeasure P (fun n ω => W n ω * V n ω) atTop (fun _ => 0) := by
  have hd := h.continuous_comp_prodMk_of_tendstoInMeasure_const (g := fun z : ℝ × ℝ => -|z.1 * z.2|) (by fun_prop)
    (tendstoInMeasure_of_tendsto_ae (fun n => (hm n).aestronglyMeasurable) hl) hm
  rw [tendstoInMeasure_iff_norm]
  intro δ hδ
  have key := prob_le_limit hd (t := -δ) (by simp [hδ.ne'])
  have h0 : (gaussianReal 0 1 {x : ℝ | -|s * x * 0| ≤ -δ}) = 0 := by simp [not_le.2 hδ]
  rw [h0] at key
  refine key.congr fun n => ?_
  congr 1
  ext ω
  rw [Set.mem_ofPred_eq, Set.mem_ofPred_eq, sub_zero, Real.norm_eq_abs, neg_le_neg_iff]

theorem gaussian_pos (t : ℝ) : gaussianReal 0 1 (Set.Iic t) ≠ 0 := by
  intro h
  have := gaussianReal_absolutelyContinuous' 0 (v := 1) one_ne_zero h
  rw [Real.volume_Iic] at this
  exact ENNReal.top_ne_zero this

theorem gaussian_half : gaussianReal 0 1 (Set.Iic (0 : ℝ)) = 1 / 2 := by
  have := nullSingletonClass_gaussianReal (μ := 0) (v := 1) one_ne_zero
  have h1 : gaussianReal 0 1 (Set.Ici (0 : ℝ)) = gaussianReal 0 1 (Set.Iic (0 : ℝ)) := by
    have h := gaussianReal_map_neg (μ := 0) (v := 1)
    rw [neg_zero] at h
    conv_lhs => rw [← h]
    rw [Measure.map_apply measurable_neg measurableSet_Ici]
    congr 1
    ext x
    simp
  have h2 : gaussianReal 0 1 (Set.Iic (0 : ℝ)) + gaussianReal 0 1 (Set.Ioi (0 : ℝ)) = 1 := by
    rw [← measure_union (Set.Iic_disjoint_Ioi le_rfl) measurableSet_Ioi, Set.Iic_union_Ioi, measure_univ]
  rw [measure_congr (Ioi_ae_eq_Ici (μ := gaussianReal 0 1) (a := (0 : ℝ))), h1, ← two_mul] at h2
  rw [ENNReal.eq_div_iff (by norm_num) (by norm_num)]
  exact h2

/-! ### C174 -/

section
variable {Z : ℕ → Ω → ℝ × ℝ}

/-- The result of the correlation filter for the first `n` pairs. -/
noncomputable def correlationOf (ε : ℝ) (w : ℕ) (z : ℕ → ℝ × ℝ) (n : ℕ) : E ε := (Correlation.run (finOps2 (pushFirst z n)) : Correlation w (E ε)).value

/-- The product of the deviations of independent variables. -/
theorem devProduct_indep {Y : Ω → ℝ × ℝ} (hx : MemLp (fun ω => (Y ω).1) 2 P) (hy : MemLp (fun ω => (Y ω).2) 2 P)
    (hi : IndepFun (fun ω => (Y ω).1) (fun ω => (Y ω).2) P) :
    MemLp (devProduct Y P) 2 P ∧ Var[devProduct Y P; P] = Var[fun ω => (Y ω).1; P] * Var[fun ω => (Y ω).2; P] := by
  set a := ∫ ω, (Y ω).1 ∂P with ha
  set b := ∫ ω, (Y ω).2 ∂P with hb
  have ix : Integrable (fun ω => ((Y ω).1 - a) ^ 2) P := (hx.sub (memLp_const a)).integrable_sq
  have iy : Integrable (fun ω => ((Y ω).2 - b) ^ 2) P := (hy.sub (memLp_const b)).integrable_sq
  have hi2 : IndepFun (fun ω => ((Y ω).1 - a) ^ 2) (fun ω => ((Y ω).2 - b) ^ 2) P :=
    hi.comp (φ := fun x : ℝ => (x - a) ^ 2) (ψ := fun x : ℝ => (x - b) ^ 2) (by fun_prop) (by fun_prop)
  have e : (fun ω => devProduct Y P ω ^ 2) = fun ω => ((Y ω).1 - a) ^ 2 * ((Y ω).2 - b) ^ 2 := by
    funext ω; simp only [devProduct, ← ha, ← hb]; ring
  have hD : MemLp (devProduct Y P) 2 P := by
    refine (memLp_two_iff_integrable_sq ?_).2 ?_
    · exact (hx.1.sub aestronglyMeasurable_const).mul (hy.1.sub aestronglyMeasurable_const)
    · rw [e]; exact hi2.integrable_mul ix iy
  refine ⟨hD, ?_⟩
  have h0 : ∫ ω, devProduct Y P ω ∂P = 0 := hi.covariance_eq_zero hx hy
  have h1 : ∫ ω, (devProduct Y P ^ 2) ω ∂P = (∫ ω, ((Y ω).1 - a) ^ 2 ∂P) * ∫ ω, ((Y ω).2 - b) ^ 2 ∂P := by
    rw [← hi2.integral_fun_mul_eq_mul_integral ix.1 iy.1, ← e]
    rfl
  rw [variance_eq_sub hD, h0, h1, variance_eq_integral hx.1.aemeasurable, variance_eq_integral hy.1.aemeasurable]
  ring

/-- C174 as stated: `√n value()` is standard normal in the limit for all independent variables that are not constant. -/
def C174_Statement (ε : ℝ) (w : ℕ → ℕ) : Prop :=
  ∀ (Ω : Type) (_ : MeasurableSpace Ω) (P : Measure Ω) (_ : IsProbabilityMeasure P) (Z : ℕ → Ω → ℝ × ℝ), Sample Z P →
    MemLp (fun ω => (Z 0 ω).1) 2 P → MemLp (fun ω => (Z 0 ω).2) 2 P → IndepFun (fun ω => (Z 0 ω).1) (fun ω => (Z 0 ω).2) P →
    Var[fun ω => (Z 0 ω).1; P] ≠ 0 → Var[fun ω => (Z 0 ω).2; P] ≠ 0 → ∀ t : ℝ,
    Tendsto (fun n : ℕ => P {ω | ∃ r : ℝ, correlationOf ε (w n) (Z · ω) n = X.fin r ∧ √n * r ≤ t}) atTop
      (𝓝 (gaussianReal 0 1 (Set.Iic t)))

theorem correlationOf_eq (hε : 0 < ε) {w n : ℕ} (hn : 1 ≤ n) (hw : n < 2 ^ w) (z : ℕ → ℝ × ℝ) :
    correlationOf ε w z n
      = X.fin (if Spec.variance (firstN (fun i => (z i).1) n) * Spec.variance (firstN (fun i => (z i).2) n) < ε then 1
          else Spec.covariance (firstN z n) / √(Spec.variance (firstN (fun i => (z i).1) n) * Spec.variance (firstN (fun i => (z i).2) n))) := by
  have hs := sinceClear_pushFirst z n
  have h := correlation_result (w := w) hε (pushFirst z n) (by rw [hs, firstN_length]; exact hw) (by rw [hs, firstN_length]; exact hn)
  simp only [hs, xsOf_firstN, ysOf_firstN] at h
  exact h

theorem product_ae (hZ : Sample Z P) (hx : MemLp (fun ω => (Z 0 ω).1) 2 P) (hy : MemLp (fun ω => (Z 0 ω).2) 2 P) :
    (∀ n, AEMeasurable (fun ω => Spec.variance (firstN (fun i => (Z i ω).1) n) * Spec.variance (firstN (fun i => (Z i ω).2) n)) P)
    ∧ ∀ᵐ ω ∂P, Tendsto (fun n => Spec.variance (firstN (fun i => (Z i ω).1) n) * Spec.variance (firstN (fun i => (Z i ω).2) n)) atTop
        (𝓝 (Var[fun ω => (Z 0 ω).1; P] * Var[fun ω => (Z 0 ω).2; P])) := by
  have zx := hZ.map measurable_fst
  have zy := hZ.map measurable_snd
  refine ⟨fun n => (measurable_variance zx n).mul (measurable_variance zy n), ?_⟩
  filter_upwards [variance_ae zx hx, variance_ae zy hy] with ω a b
  exact a.mul b

/-- C174, the part that holds: independent variables whose variances have a product above the cut-off.  Missing: smaller variances, where the
result is 1 (`C174_small`). -/
theorem C174_independent_partial (hε : 0 < ε) (hZ : Sample Z P) (hx : MemLp (fun ω => (Z 0 ω).1) 2 P) (hy : MemLp (fun ω => (Z 0 ω).2) 2 P)
    (hi : IndepFun (fun ω => (Z 0 ω).1) (fun ω => (Z 0 ω).2) P) (hV : ε < Var[fun ω => (Z 0 ω).1; P] * Var[fun ω => (Z 0 ω).2; P])
    {w : ℕ → ℕ} (hw : ∀ n, n < 2 ^ w n) (t : ℝ) :
    Tendsto (fun n : ℕ => P {ω | ∃ r : ℝ, correlationOf ε (w n) (Z · ω) n = X.fin r ∧ √n * r ≤ t}) atTop
      (𝓝 (gaussianReal 0 1 (Set.Iic t))) := by
  obtain ⟨hD, hVar⟩ := devProduct_indep hx hy hi
  obtain ⟨W, hW, e⟩ := clt_cov hZ hx hy hD
  obtain ⟨hm, hl⟩ := product_ae hZ hx hy
  rw [hVar] at hW
  set τ := Var[fun ω => (Z 0 ω).1; P] * Var[fun ω => (Z 0 ω).2; P] with hτ
  have hτ0 : 0 < τ := hε.trans hV
  have key := threshold_limit (Real.sqrt_pos.2 hτ0) hW (t := t)
    (V := fun n ω => t * √(Spec.variance (firstN (fun i => (Z i ω).1) n) * Spec.variance (firstN (fun i => (Z i ω).2) n)))
    (fun n => (hm n).sqrt.const_mul t) (by
      filter_upwards [hl] with ω h
      exact ((Real.continuous_sqrt.tendsto _).comp h).const_mul t)
  have hin := tendstoInMeasure_of_tendsto_ae (fun n => (hm n).aestronglyMeasurable) hl
  rw [tendstoInMeasure_iff_norm] at hin
  refine prob_congr (measure_ne_top _ _) key (hin (τ - ε) (by linarith)) ?_
  filter_upwards [eventually_ge_atTop 1] with n hn ω hω
  set v := Spec.variance (firstN (fun i => (Z i ω).1) n) * Spec.variance (firstN (fun i => (Z i ω).2) n) with hv
  have hω : ¬ τ - ε ≤ ‖v - τ‖ := hω
  rw [not_le, Real.norm_eq_abs, abs_lt] at hω
  have hvε : ¬ v < ε := by linarith
  have hv0 : 0 < √v := Real.sqrt_pos.2 (by linarith)
  show W n ω ≤ t * √v ↔ ∃ r : ℝ, correlationOf ε (w n) (Z · ω) n = X.fin r ∧ √n * r ≤ t
  rw [correlationOf_eq hε hn (hw n), ← hv, if_neg hvε, e n hn ω, hi.covariance_eq_zero hx hy, sub_zero, ← div_le_iff₀ hv0, mul_div_assoc]
  constructor
  · intro h
    exact ⟨_, rfl, h⟩
  · rintro ⟨r, h1, h2⟩
    rw [X.fin_inj] at h1
    rw [h1]; exact h2

/-- C174: below the cut-off the result is 1 with a probability that tends to one, whatever the dependence of the variables. -/
theorem C174_small (hε : 0 < ε) (hZ : Sample Z P) (hx : MemLp (fun ω => (Z 0 ω).1) 2 P) (hy : MemLp (fun ω => (Z 0 ω).2) 2 P)
    (hV : Var[fun ω => (Z 0 ω).1; P] * Var[fun ω => (Z 0 ω).2; P] < ε) {w : ℕ → ℕ} (hw : ∀ n, n < 2 ^ w n) :
    Tendsto (fun n : ℕ => P {ω | ¬ correlationOf ε (w n) (Z · ω) n = X.fin 1}) atTop (𝓝 0) := by
  obtain ⟨hm, hl⟩ := product_ae hZ hx hy
  have hin := tendstoInMeasure_of_tendsto_ae (fun n => (hm n).aestronglyMeasurable) hl
  rw [tendstoInMeasure_iff_norm] at hin
  set τ := Var[fun ω => (Z 0 ω).1; P] * Var[fun ω => (Z 0 ω).2; P] with hτ
  refine tendsto_of_tendsto_of_tendsto_of_le_of_le' tendsto_const_nhds (hin (ε - τ) (by linarith)) (Eventually.of_forall fun n => bot_le) ?_
  filter_upwards [eventually_ge_atTop 1] with n hn
  refine measure_mono fun ω hω => ?_
  have hω : ¬ correlationOf ε (w n) (Z · ω) n = X.fin 1 := hω
  rw [correlationOf_eq hε hn (hw n)] at hω
  by_contra hc
  have hc : ¬ ε - τ ≤ ‖Spec.variance (firstN (fun i => (Z i ω).1) n) * Spec.variance (firstN (fun i => (Z i ω).2) n) - τ‖ := hc
  rw [not_le, Real.norm_eq_abs, abs_lt] at hc
  exact hω (by rw [if_pos (by linarith)])

end

/-- Two independent throws of a coin with the sides `0` and `d`. -/
noncomputable def twoCoins (d : ℝ) : Measure (ℝ × ℝ) := (coin (1 / 2) 0 d).prod (coin (1 / 2) 0 d)

section
variable {d : ℝ}

theorem half_prob (d : ℝ) : IsProbabilityMeasure (coin (1 / 2) 0 d) := coin_prob (by norm_num) (by norm_num)

instance twoCoins_prob : IsProbabilityMeasure (twoCoins d) := by
  have := half_prob d
  unfold twoCoins
  infer_instance

/-- A sequence of independent such pairs. -/
theorem twoCoins_sample (d : ℝ) :
    let P := Measure.infinitePi fun _ : ℕ => twoCoins d
    Sample (fun i (ω : ℕ → ℝ × ℝ) => ω i) P ∧ MemLp (fun ω : ℕ → ℝ × ℝ => (ω 0).1) 2 P ∧ MemLp (fun ω : ℕ → ℝ × ℝ => (ω 0).2) 2 P
    ∧ IndepFun (fun ω : ℕ → ℝ × ℝ => (ω 0).1) (fun ω : ℕ → ℝ × ℝ => (ω 0).2) P
    ∧ Var[fun ω : ℕ → ℝ × ℝ => (ω 0).1; P] = d ^ 2 / 4 ∧ Var[fun ω : ℕ → ℝ × ℝ => (ω 0).2; P] = d ^ 2 / 4 := by
  intro P
  have hp := half_prob d
  have h0 : (0 : ℝ) ≤ 1 / 2 := by norm_num
  have h1 : (1 / 2 : ℝ) ≤ 1 := by norm_num
  have hl := coin_memLp (a := (0 : ℝ)) (b := d) h0 h1 measurable_id' 2
  have m0 := measurePreserving_eval_infinitePi (fun _ : ℕ => twoCoins d) 0
  have mx : MeasurePreserving (fun ω : ℕ → ℝ × ℝ => (ω 0).1) P (coin (1 / 2) 0 d) := measurePreserving_fst.comp m0
  have my : MeasurePreserving (fun ω : ℕ → ℝ × ℝ => (ω 0).2) P (coin (1 / 2) 0 d) := measurePreserving_snd.comp m0
  have hx : MemLp (fun ω : ℕ → ℝ × ℝ => (ω 0).1) 2 P := hl.comp_measurePreserving mx
  have hy : MemLp (fun ω : ℕ → ℝ × ℝ => (ω 0).2) 2 P := hl.comp_measurePreserving my
  have hvar : ∀ {f : (ℕ → ℝ × ℝ) → ℝ}, MeasurePreserving f P (coin (1 / 2) 0 d) → Var[f; P] = d ^ 2 / 4 := by
    intro f hf
    have hc : Var[id; coin (1 / 2) 0 d] = d ^ 2 / 4 := by
      rw [variance_eq_integral measurable_id.aemeasurable, coin_integral h0 h1, coin_integral h0 h1]
      simp only [id]
      ring
    rw [← hc, ← hf.map_eq, variance_map aemeasurable_id hf.measurable.aemeasurable]
    rfl
  refine ⟨normal_sample_eval _, hx, hy, ?_, hvar mx, hvar my⟩
  rw [indepFun_iff_map_prod_eq_prod_map_map mx.measurable.aemeasurable my.measurable.aemeasurable, mx.map_eq, my.map_eq]
  exact m0.map_eq

end

/-- C174 is violated at every cut-off: for two coins with a small difference of the sides the result is 1 in the long run, although the coins
are independent. -/
theorem C174_violated (hε : 0 < ε) {w : ℕ → ℕ} (hw : ∀ n, n < 2 ^ w n) : ¬ C174_Statement ε w := by
  intro h
  obtain ⟨d, hd0, hd⟩ : ∃ d : ℝ, 0 < d ∧ d ^ 2 / 4 * (d ^ 2 / 4) < ε := by
    refine ⟨min 1 ε, lt_min one_pos hε, ?_⟩
    have h1 : min 1 ε ≤ 1 := min_le_left _ _
    have h2 : min 1 ε ≤ ε := min_le_right _ _
    have h3 : 0 < min 1 ε := lt_min one_pos hε
    generalize min 1 ε = m at *
    have h4 : m ^ 3 ≤ 1 := pow_le_one₀ h3.le h1
    nlinarith [mul_le_mul_of_nonneg_left h4 h3.le]
  obtain ⟨hZ, hx, hy, hi, hvx, hvy⟩ := twoCoins_sample d
  have hne : d ^ 2 / 4 ≠ 0 := by positivity
  have h1 := h _ _ _ inferInstance _ hZ hx hy hi (by rw [hvx]; exact hne) (by rw [hvy]; exact hne) 0
  have h2 := C174_small (ε := ε) hε hZ hx hy (by rw [hvx, hvy]; exact hd) hw
  refine gaussian_pos 0 (tendsto_nhds_unique h1 ?_)
  refine tendsto_of_tendsto_of_tendsto_of_le_of_le' tendsto_const_nhds h2 (Eventually.of_forall fun n => bot_le) ?_
  filter_upwards [eventually_ge_atTop 1] with n hn
  refine measure_mono ?_
  rintro ω ⟨r, hr, hle⟩ hc
  rw [hr, X.fin_inj] at hc
  rw [hc, mul_one] at hle
  have : (0 : ℝ) < √n := Real.sqrt_pos.2 (by exact_mod_cast hn)
  linarith

/-- Two coins with the sides 0 and 4 have variances 4. -/
example (hε : 0 < ε) (hε1 : ε ≤ 1) (t : ℝ) : ∃ P : Measure (ℕ → ℝ × ℝ), IsProbabilityMeasure P
    ∧ Tendsto (fun n : ℕ => P {ω | ∃ r : ℝ, correlationOf ε n ω n = X.fin r ∧ √n * r ≤ t}) atTop (𝓝 (gaussianReal 0 1 (Set.Iic t))) := by
  obtain ⟨hZ, hx, hy, hi, hvx, hvy⟩ := twoCoins_sample 4
  exact ⟨_, inferInstance, C174_independent_partial hε hZ hx hy hi (by rw [hvx, hvy]; norm_num; linarith) (w := fun n => n)
    (fun n => Nat.lt_two_pow_self) t⟩

/-! ### C175 -/

section
variable {Z : ℕ → Ω → ℝ}

/-- The influence of one value on the third central moment. -/
noncomputable def skewInfluence (Y : Ω → ℝ) (P : Measure Ω) (ω : Ω) : ℝ :=
  (Y ω - ∫ ω, Y ω ∂P) ^ 3 - 3 * Var[Y; P] * (Y ω - ∫ ω, Y ω ∂P)

theorem skewInfluence_memLp {Y : Ω → ℝ} (h6 : MemLp Y 6 P) : MemLp (skewInfluence Y P) 2 P := by
  have h2 : MemLp Y 2 P := h6.mono_exponent (by norm_num)
  refine MemLp.sub ?_ ((h2.sub (memLp_const _)).const_mul _)
  refine (memLp_two_iff_integrable_sq ((h6.sub (memLp_const _)).1.pow 3)).2 ?_
  refine (integrable_dev (k := 6) h6 (∫ ω, Y ω ∂P)).congr (Eventually.of_forall fun ω => ?_)
  show (Y ω - ∫ ω, Y ω ∂P) ^ 6 = ((Y ω - ∫ ω, Y ω ∂P) ^ 3) ^ 2
  ring

/-- The central limit theorem for the third central moment. -/
theorem clt_third (hZ : Sample Z P) (h6 : MemLp (Z 0) 6 P) (h3 : ∫ ω, (Z 0 ω - ∫ ω, Z 0 ω ∂P) ^ 3 ∂P = 0) :
    ∃ W : ℕ → Ω → ℝ, TendstoInDistribution W atTop (fun x => √Var[skewInfluence (Z 0) P; P] * x) (fun _ => P) (gaussianReal 0 1)
      ∧ ∀ n : ℕ, 1 ≤ n → ∀ ω, W n ω = √n * (Spec.central 3 (firstN (Z · ω) n) / n) := by
  set μ := ∫ ω, Z 0 ω ∂P with hμ
  have h2 : MemLp (Z 0) 2 P := h6.mono_exponent (by norm_num)
  have hl3 : MemLp (Z 0) 3 P := h6.mono_exponent (by norm_num)
  have i1 : Integrable (Z 0) P := h2.integrable (by norm_num)
  have hV := variance_eq_integral h2.1.aemeasurable
  set V := Var[Z 0; P] with hVdef
  have zp : Sample (fun i ω => (Z i ω - μ) ^ 3 - 3 * V * (Z i ω - μ)) P := hZ.map (g := fun x => (x - μ) ^ 3 - 3 * V * (x - μ)) (by fun_prop)
  have hE : ∫ ω, ((Z 0 ω - μ) ^ 3 - 3 * V * (Z 0 ω - μ)) ∂P = 0 := by
    have i2 : Integrable (fun ω => 3 * V * (Z 0 ω - μ)) P := (i1.sub (integrable_const μ)).const_mul _
    rw [integral_sub (integrable_dev (k := 3) hl3 μ) i2, h3, integral_const_mul,
      integral_sub i1 (integrable_const μ), integral_const, probReal_univ, one_smul]
    simp [hμ]
  have hc := clt_mean zp (skewInfluence_memLp h6)
  simp only [hE, sub_zero] at hc
  have hm : ∀ n, AEMeasurable (fun ω => 2 * avg (Z · ω) 1 μ n ^ 2 - 3 * (avg (Z · ω) 2 μ n - V)) P := fun n =>
    (((measurable_avg hZ 1 μ n).pow_const 2).const_mul 2).sub (((measurable_avg hZ 2 μ n).sub_const V).const_mul 3)
  have hl : ∀ᵐ ω ∂P, Tendsto (fun n => 2 * avg (Z · ω) 1 μ n ^ 2 - 3 * (avg (Z · ω) 2 μ n - V)) atTop (𝓝 0) := by
    filter_upwards [avg_one hZ.iid i1, avg_law hZ.iid 2 _ (integrable_dev (k := 2) h2 μ)] with ω a1 a2
    rw [← hV] at a2
    have := ((a1.pow 2).const_mul 2).sub ((a2.sub_const V).const_mul 3)
    rw [show (2 : ℝ) * 0 ^ 2 - 3 * (V - V) = 0 by ring] at this
    exact this
  have hmean := clt_mean hZ h2
  have hm' : ∀ n : ℕ, AEMeasurable (fun ω => √n * (Spec.mean (firstN (Z · ω) n) - μ)
      * (2 * avg (Z · ω) 1 μ n ^ 2 - 3 * (avg (Z · ω) 2 μ n - V))) P := fun n => (((measurable_mean hZ n).sub_const μ).const_mul _).mul (hm n)
  have hd := hc.add_of_tendstoInMeasure_const (vanish_mul hmean hm hl) hm'
  simp only [add_zero] at hd
  refine ⟨_, hd, fun n hn ω => ?_⟩
  have hn0 : n ≠ 0 := by omega
  have e1 : Spec.mean (firstN (fun i => (Z i ω - μ) ^ 3 - 3 * V * (Z i ω - μ)) n) = avg (Z · ω) 3 μ n - 3 * V * avg (Z · ω) 1 μ n := by
    rw [mean_firstN, avg, avg, Finset.sum_sub_distrib, ← Finset.mul_sum]
    simp only [pow_one]
    ring
  show √n * Spec.mean (firstN (fun i => (Z i ω - μ) ^ 3 - 3 * V * (Z i ω - μ)) n)
    + √n * (Spec.mean (firstN (Z · ω) n) - μ) * (2 * avg (Z · ω) 1 μ n ^ 2 - 3 * (avg (Z · ω) 2 μ n - V)) = _
  rw [e1, central_three_avg (Z · ω) μ hn0, mean_sub _ μ hn0]
  ring

/-- The result of the skewness filter for the first `n` values. -/
noncomputable def skewResult (ε : ℝ) (w : ℕ) (x : ℕ → ℝ) (n : ℕ) : E ε := (Skewness.run (finOps (pushFirst x n)) : Skewness w (E ε)).skewness

theorem skewResult_eq (hε : 0 < ε) {w n : ℕ} (hw : n < 2 ^ w) (x : ℕ → ℝ) :
    skewResult ε w x n = X.fin (if Spec.central 3 (firstN x n) < ε then 0 else Spec.skewness (firstN x n)) := by
  have hs := sinceClear_pushFirst x n
  have h := skewness_result (w := w) hε (pushFirst x n) (by rw [hs, firstN_length]; exact hw)
  rw [hs] at h
  exact h

/-- C175 as stated: for data whose third central moment is zero `√n skewness()` is normal in the limit. -/
def C175_Statement (ε : ℝ) (w : ℕ → ℕ) : Prop :=
  ∀ (Ω : Type) (_ : MeasurableSpace Ω) (P : Measure Ω) (_ : IsProbabilityMeasure P) (Z : ℕ → Ω → ℝ), Sample Z P → MemLp (Z 0) 6 P →
    ∫ ω, (Z 0 ω - ∫ ω, Z 0 ω ∂P) ^ 3 ∂P = 0 → Var[Z 0; P] ≠ 0 → Var[skewInfluence (Z 0) P; P] ≠ 0 → ∀ t : ℝ,
    Tendsto (fun n : ℕ => P {ω | ∃ g : ℝ, skewResult ε (w n) (Z · ω) n = X.fin g
      ∧ √n * g ≤ t * (√Var[skewInfluence (Z 0) P; P] / √Var[Z 0; P] ^ 3)}) atTop (𝓝 (gaussianReal 0 1 (Set.Iic t)))

/-- If the result is not cut off, the variance is positive. -/
theorem variance_pos_of_third (hε : 0 < ε) {xs : List ℝ} (h : ε ≤ Spec.central 3 xs) : 0 < Spec.variance xs := by
  have hne : Spec.central 2 xs ≠ 0 := by
    intro e
    rw [central_three_of_two e] at h
    exact absurd h (not_le.2 hε)
  have h2 : 0 < Spec.central 2 xs := lt_of_le_of_ne (Spec.central_two_nonneg _) (Ne.symm hne)
  refine div_pos h2 ?_
  rcases Nat.eq_zero_or_pos xs.length with e | e
  · rw [List.length_eq_zero_iff] at e
    rw [e] at hne; simp at hne
  · exact_mod_cast e

/-- C175, the part that holds: the limit for non-negative bounds.  Missing: negative bounds, because `skewness()` is never negative. -/
theorem C175_skewness_partial (hε : 0 < ε) (hZ : Sample Z P) (h6 : MemLp (Z 0) 6 P) (h3 : ∫ ω, (Z 0 ω - ∫ ω, Z 0 ω ∂P) ^ 3 ∂P = 0)
    (hV : Var[Z 0; P] ≠ 0) (hS : Var[skewInfluence (Z 0) P; P] ≠ 0) {w : ℕ → ℕ} (hw : ∀ n, n < 2 ^ w n) {t : ℝ} (ht : 0 ≤ t) :
    Tendsto (fun n : ℕ => P {ω | ∃ g : ℝ, skewResult ε (w n) (Z · ω) n = X.fin g
      ∧ √n * g ≤ t * (√Var[skewInfluence (Z 0) P; P] / √Var[Z 0; P] ^ 3)}) atTop (𝓝 (gaussianReal 0 1 (Set.Iic t))) := by
  have h2 : MemLp (Z 0) 2 P := h6.mono_exponent (by norm_num)
  have hV0 : 0 < Var[Z 0; P] := lt_of_le_of_ne (ProbabilityTheory.variance_nonneg _ _) hV.symm
  have hS0 : 0 < Var[skewInfluence (Z 0) P; P] := lt_of_le_of_ne (ProbabilityTheory.variance_nonneg _ _) hS.symm
  obtain ⟨W, hW, e⟩ := clt_third hZ h6 h3
  set s := √Var[skewInfluence (Z 0) P; P] with hs
  have hs0 : 0 < s := Real.sqrt_pos.2 hS0
  set σ := √Var[Z 0; P] with hσ
  have hσ0 : 0 < σ := Real.sqrt_pos.2 hV0
  -- the bound on the third central moment, with part of the cut-off
  let B : ℝ → ℕ → Ω → ℝ := fun c n ω => max (c / √n) (t * (s / σ ^ 3) * √(Spec.variance (firstN (Z · ω) n)) ^ 3)
  have hB : ∀ c, Tendsto (fun n : ℕ => P {ω | W n ω ≤ B c n ω}) atTop (𝓝 (gaussianReal 0 1 (Set.Iic t))) := by
    intro c
    refine threshold_limit hs0 hW (fun n => ?_) ?_
    · exact (aemeasurable_const).max (((measurable_variance hZ n).sqrt.pow_const 3).const_mul _)
    · filter_upwards [variance_ae hZ h2] with ω hv
      have a1 : Tendsto (fun n : ℕ => c / √(n : ℝ)) atTop (𝓝 0) :=
        tendsto_const_nhds.div_atTop (Real.tendsto_sqrt_atTop.comp tendsto_natCast_atTop_atTop)
      have a2 := ((((Real.continuous_sqrt.tendsto _).comp hv).pow 3).const_mul (t * (s / σ ^ 3)))
      have := a1.max a2
      rw [← hσ, show t * (s / σ ^ 3) * σ ^ 3 = t * s by field_simp, max_eq_right (mul_nonneg ht hs0.le)] at this
      exact this
  refine tendsto_of_tendsto_of_tendsto_of_le_of_le' (hB (ε / 2)) (hB ε) ?_ ?_
  all_goals
    filter_upwards [eventually_ge_atTop 1] with n hn
    refine measure_mono fun ω hω => ?_
    have hn0 : (0 : ℝ) < n := by exact_mod_cast hn
    have hr0 : 0 < √(n : ℝ) := Real.sqrt_pos.2 hn0
    have hrr : √(n : ℝ) * √(n : ℝ) = n := Real.mul_self_sqrt hn0.le
    have hWe : W n ω = Spec.central 3 (firstN (Z · ω) n) / √n := by
      rw [e n hn ω, mul_div_assoc', div_eq_div_iff hn0.ne' hr0.ne', mul_right_comm, hrr, mul_comm]
    have hsk := skewResult_eq hε (hw n) (Z · ω)
    have hiff : ε ≤ Spec.central 3 (firstN (Z · ω) n) → (√n * Spec.skewness (firstN (Z · ω) n) ≤ t * (s / σ ^ 3)
        ↔ W n ω ≤ t * (s / σ ^ 3) * √(Spec.variance (firstN (Z · ω) n)) ^ 3) := by
      intro hc
      have hv := pow_pos (Real.sqrt_pos.2 (variance_pos_of_third hε hc)) 3
      rw [e n hn ω, Spec.skewness, firstN_length, ← mul_div_assoc, div_le_iff₀ hv]
  · have hω : W n ω ≤ B (ε / 2) n ω := hω
    show ∃ g : ℝ, skewResult ε (w n) (Z · ω) n = X.fin g ∧ √n * g ≤ t * (s / σ ^ 3)
    refine ⟨_, hsk, ?_⟩
    by_cases hc : Spec.central 3 (firstN (Z · ω) n) < ε
    · rw [if_pos hc, mul_zero]; positivity
    · rw [if_neg hc, hiff (not_lt.1 hc)]
      refine (le_max_iff.1 hω).resolve_left fun h => ?_
      rw [hWe, div_le_div_iff_of_pos_right hr0] at h
      linarith [not_lt.1 hc]
  · obtain ⟨g, hg, hle⟩ : ∃ g : ℝ, skewResult ε (w n) (Z · ω) n = X.fin g ∧ √n * g ≤ t * (s / σ ^ 3) := hω
    rw [hsk, X.fin_inj] at hg
    show W n ω ≤ B ε n ω
    by_cases hc : Spec.central 3 (firstN (Z · ω) n) < ε
    · refine le_max_of_le_left ?_
      rw [hWe]
      exact (div_le_div_iff_of_pos_right hr0).2 hc.le
    · rw [if_neg hc] at hg
      rw [← hg, hiff (not_lt.1 hc)] at hle
      exact le_max_of_le_right hle

/-- `skewness()` is never negative. -/
theorem skewResult_nonneg (hε : 0 < ε) {w n : ℕ} (hw : n < 2 ^ w) (x : ℕ → ℝ) : ∃ g : ℝ, skewResult ε w x n = X.fin g ∧ 0 ≤ g := by
  refine ⟨_, skewResult_eq hε hw x, ?_⟩
  split_ifs with hc
  · exact le_rfl
  · have hc := not_lt.1 hc
    have := variance_pos_of_third hε hc
    rw [Spec.skewness]
    have : 0 ≤ Spec.central 3 (firstN x n) := hε.le.trans hc
    positivity

/-- C175: the probability that `skewness()` is exactly zero tends to one half. -/
theorem C175_zero (hε : 0 < ε) (hZ : Sample Z P) (h6 : MemLp (Z 0) 6 P) (h3 : ∫ ω, (Z 0 ω - ∫ ω, Z 0 ω ∂P) ^ 3 ∂P = 0)
    (hV : Var[Z 0; P] ≠ 0) (hS : Var[skewInfluence (Z 0) P; P] ≠ 0) {w : ℕ → ℕ} (hw : ∀ n, n < 2 ^ w n) :
    Tendsto (fun n : ℕ => P {ω | skewResult ε (w n) (Z · ω) n = X.fin 0}) atTop (𝓝 (1 / 2)) := by
  have := C175_skewness_partial hε hZ h6 h3 hV hS hw le_rfl
  rw [gaussian_half] at this
  refine this.congr' ?_
  filter_upwards [eventually_ge_atTop 1] with n hn
  congr 1
  ext ω
  have hr0 : 0 < √(n : ℝ) := Real.sqrt_pos.2 (by exact_mod_cast hn)
  rw [Set.mem_ofPred_eq, Set.mem_ofPred_eq]
  constructor
  · rintro ⟨g, hg, hle⟩
    obtain ⟨g', hg', h0⟩ := skewResult_nonneg hε (hw n) (Z · ω)
    have he : g = g' := by rw [hg, X.fin_inj] at hg'; exact hg'
    rw [zero_mul] at hle
    have : g ≤ 0 := by
      by_contra hc
      have := mul_pos hr0 (not_le.1 hc)
      linarith
    rw [hg, X.fin_inj]
    linarith
  · intro h
    exact ⟨0, h, by simp⟩

end

/-- A fair coin with the sides 0 and 2: the third central moment is zero, the influence is `-2 (x - 1)`. -/
theorem fairCoin_sample :
    let P := Measure.infinitePi fun _ : ℕ => coin (1 / 2) (0 : ℝ) 2
    IsProbabilityMeasure P ∧ Sample (fun i (ω : ℕ → ℝ) => ω i) P ∧ MemLp (fun ω : ℕ → ℝ => ω 0) 6 P
    ∧ ∫ ω, (ω 0 - ∫ ω, ω 0 ∂P) ^ 3 ∂P = 0 ∧ Var[fun ω : ℕ → ℝ => ω 0; P] = 1 ∧ Var[skewInfluence (fun ω : ℕ → ℝ => ω 0) P; P] = 4 := by
  intro P
  have h0 : (0 : ℝ) ≤ 1 / 2 := by norm_num
  have h1 : (1 / 2 : ℝ) ≤ 1 := by norm_num
  have hp := coin_prob (a := (0 : ℝ)) (b := 2) h0 h1
  have hm2 := coin_moments (a := 0) (b := 2) h0 h1 2
  have hm3 := (coin_moments (a := 0) (b := 2) h0 h1 3).2
  have h6 : MemLp (fun ω : ℕ → ℝ => ω 0) 6 P := eval_memLp (coin (1 / 2) (0 : ℝ) 2) (coin_memLp h0 h1 measurable_id' 6)
  have hmean : ∫ ω : ℕ → ℝ, ω 0 ∂P = 1 := by refine hm2.1.trans ?_; norm_num
  have hvar : Var[fun ω : ℕ → ℝ => ω 0; P] = 1 := by
    rw [variance_eq_integral h6.1.aemeasurable]
    refine hm2.2.trans ?_
    norm_num
  have hi : skewInfluence (fun ω : ℕ → ℝ => ω 0) P = fun ω => (fun x : ℝ => (x - 1) ^ 3 - 3 * (x - 1)) (ω 0) := by
    funext ω
    simp only [skewInfluence, hmean, hvar]
    ring
  refine ⟨inferInstance, normal_sample_eval _, h6, ?_, hvar, ?_⟩
  · refine hm3.trans ?_
    norm_num
  · rw [variance_eq_sub (skewInfluence_memLp h6), hi]
    have e1 := eval_integral (coin (1 / 2) (0 : ℝ) 2) (g := fun x : ℝ => (x - 1) ^ 3 - 3 * (x - 1)) (by fun_prop)
    have e2 := eval_integral (coin (1 / 2) (0 : ℝ) 2) (g := fun x : ℝ => ((x - 1) ^ 3 - 3 * (x - 1)) ^ 2) (by fun_prop)
    rw [coin_integral h0 h1] at e1 e2
    norm_num at e1 e2
    have e2' : ∫ ω, ((fun ω : ℕ → ℝ => (ω 0 - 1) ^ 3 - 3 * (ω 0 - 1)) ^ 2) ω ∂P = 4 := e2
    show (∫ ω, ((fun ω : ℕ → ℝ => (ω 0 - 1) ^ 3 - 3 * (ω 0 - 1)) ^ 2) ω ∂P) - (∫ ω : ℕ → ℝ, ((ω 0 - 1) ^ 3 - 3 * (ω 0 - 1)) ∂P) ^ 2 = 4
    rw [e2', e1]
    norm_num

/-- C175 is violated: the skewness of throws of a fair coin is never negative. -/
theorem C175_violated (hε : 0 < ε) {w : ℕ → ℕ} (hw : ∀ n, n < 2 ^ w n) : ¬ C175_Statement ε w := by
  intro h
  obtain ⟨hP, hZ, h6, h3, hV, hS⟩ := fairCoin_sample
  have h1 := h _ _ _ hP _ hZ h6 h3 (by rw [hV]; norm_num) (by rw [hS]; norm_num) (-1)
  refine gaussian_pos (-1) (tendsto_nhds_unique h1 ?_)
  refine tendsto_const_nhds.congr fun n => ?_
  symm
  rw [measure_eq_zero_iff_ae_notMem]
  refine Eventually.of_forall ?_
  rintro ω ⟨g, hg, hle⟩
  obtain ⟨g', hg', h0⟩ := skewResult_nonneg hε (hw n) (fun i => ω i)
  have he : g = g' := by rw [hg, X.fin_inj] at hg'; exact hg'
  rw [hV, hS] at hle
  have h4 : (0 : ℝ) < √4 / √1 ^ 3 := by positivity
  have : 0 ≤ √(n : ℝ) * g := mul_nonneg (Real.sqrt_nonneg _) (he ▸ h0)
  linarith

/-- Half of the throws of a fair coin have skewness zero in the limit. -/
example (hε : 0 < ε) : ∃ P : Measure (ℕ → ℝ), IsProbabilityMeasure P
    ∧ Tendsto (fun n : ℕ => P {ω | skewResult ε n ω n = X.fin 0}) atTop (𝓝 (1 / 2)) := by
  obtain ⟨hP, hZ, h6, h3, hV, hS⟩ := fairCoin_sample
  exact ⟨_, hP, C175_zero hε hZ h6 h3 (by rw [hV]; norm_num) (by rw [hS]; norm_num) (w := fun n => n) fun n => Nat.lt_two_pow_self⟩

end Verif.Props
