import Verif.Props.Unbiased
import Verif.Props.Limits
/-
C131, C132: what `decay::moment_variance` estimates.
-/
namespace Verif.Props
open Filter Topology MeasureTheory ProbabilityTheory Verif.Stochastic Exact Decay
open scoped ENNReal

variable {ε : ℝ} {Ω : Type} {mΩ : MeasurableSpace Ω} {P : Measure Ω} [IsProbabilityMeasure P]

/-- The exponentially weighted variance: the weighted mean of the squared deviations from the weighted mean. -/
noncomputable def Spec_ewVariance (f : ℝ) (xs : List ℝ) : ℝ :=
  Spec.ewMean f (xs.map fun x => (x - Spec.ewMean f xs) ^ 2)

/-- C131, as stated: with one factor for both levels, `variance()` is the exponentially weighted variance. -/
def C131_Statement (ε : ℝ) : Prop :=
  ∀ f : ℝ, 0 < f → f ≤ 1 → ∀ ops : List (Op ℝ), pushCount ops = (sinceClear ops).length →
    (Variance.run (X.fin f) (X.fin f) (finOps ops) : Variance (E ε)).variance = X.fin (Spec_ewVariance f (sinceClear ops))

/-- The sums behind the weighted variance. -/
theorem ewSum_about (f c : ℝ) (xs : List ℝ) :
    Spec.ewSum f (xs.map fun x => (x - c) ^ 2)
      = Spec.ewSum f (xs.map (· ^ 2)) - 2 * c * Spec.ewSum f xs + c ^ 2 * (1 - (1 - f) ^ xs.length) := by
  induction xs using List.reverseRecOn with
  | nil => simp [Spec.ewSum]
  | append_singleton xs x ih =>
    rw [List.map_append, List.map_cons, List.map_nil, List.map_append, List.map_cons, List.map_nil, Spec.ewSum_snoc,
      Spec.ewSum_snoc, Spec.ewSum_snoc, ih, List.length_append, List.length_singleton, pow_succ]
    ring

/-- The deviation from the mean after the update is a fraction of that from the mean before. -/
theorem dev_shrinks {f : ℝ} (h0 : 0 < f) (h1 : f ≤ 1) (xs : List ℝ) (hne : xs ≠ []) (x : ℝ) :
    x - Spec.ewMean f (xs ++ [x])
      = (1 - f) * (1 - (1 - f) ^ xs.length) / (1 - (1 - f) ^ (xs.length + 1)) * (x - Spec.ewMean f xs) := by
  have hW := (Spec.norm_pos h0 h1 (n := xs.length) (by simpa using hne)).ne'
  have hW' := (Spec.norm_pos h0 h1 (n := xs.length + 1) (by simp)).ne'
  rw [Spec.ewMean, Spec.ewMean, Spec.ewSum_snoc, List.length_append, List.length_singleton]
  field_simp
  rw [pow_succ]
  ring

/-- The weighted sum of squares `V` about the weighted mean when a value arrives. -/
theorem ewSum_sq_snoc {f : ℝ} (h0 : 0 < f) (h1 : f ≤ 1) (xs : List ℝ) (hne : xs ≠ []) (x : ℝ) :
    Spec.ewSum f ((xs ++ [x]).map fun y => (y - Spec.ewMean f (xs ++ [x])) ^ 2)
      = (1 - f) * Spec.ewSum f (xs.map fun y => (y - Spec.ewMean f xs) ^ 2)
        + f * ((1 - f) * (1 - (1 - f) ^ xs.length) / (1 - (1 - f) ^ (xs.length + 1))) * (x - Spec.ewMean f xs) ^ 2 := by
  have hW := (Spec.norm_pos h0 h1 (n := xs.length) (by simpa using hne)).ne'
  have hW' := (Spec.norm_pos h0 h1 (n := xs.length + 1) (by simp)).ne'
  rw [ewSum_about, ewSum_about, List.map_append, List.map_cons, List.map_nil, Spec.ewSum_snoc, Spec.ewMean, Spec.ewMean,
    Spec.ewSum_snoc, List.length_append, List.length_singleton]
  generalize hA : Spec.ewSum f (xs.map (· ^ 2)) = A
  generalize hB : Spec.ewSum f xs = B
  rw [pow_succ (1 - f) xs.length] at hW' ⊢
  generalize (1 - f) ^ xs.length = p at *
  obtain ⟨V, hV⟩ : ∃ V, V = 1 - p * (1 - f) := ⟨_, rfl⟩
  rw [← hV] at hW' ⊢
  field_simp
  rw [hV]
  ring

theorem ewSum_nonneg {f : ℝ} (h0 : 0 < f) (h1 : f ≤ 1) {xs : List ℝ} (h : ∀ x ∈ xs, 0 ≤ x) : 0 ≤ Spec.ewSum f xs := by
  rw [Spec.ewSum]
  refine List.sum_nonneg fun y hy => ?_
  obtain ⟨i, hi, rfl⟩ := List.mem_map.1 hy
  rw [List.mem_range] at hi
  rw [List.getD_eq_getElem _ _ hi]
  exact mul_nonneg (mul_nonneg h0.le (pow_nonneg (by linarith) _)) (h _ (List.getElem_mem _))

/-- The sum of squares kept by the code against the true one. -/
theorem decaySum_bounds {f : ℝ} (h0 : 0 < f) (h1 : f ≤ 1) (xs : List ℝ) :
    (1 - f) / (2 - f) * Spec.ewSum f (xs.map fun y => (y - Spec.ewMean f xs) ^ 2) ≤ Spec.ewSum f ((Spec.ewDevs f xs).map (· ^ 2))
    ∧ Spec.ewSum f ((Spec.ewDevs f xs).map (· ^ 2)) ≤ (1 - f) * Spec.ewSum f (xs.map fun y => (y - Spec.ewMean f xs) ^ 2) := by
  induction xs using List.reverseRecOn with
  | nil => simp [Spec.ewSum]
  | append_singleton xs x ih =>
    by_cases hne : xs = []
    · subst hne
      have e : Spec.ewMean f [x] = x := by
        simp [Spec.ewMean, Spec.ewSum, h0.ne']
      simp [Spec.ewDevs, e, Spec.ewSum]
    · rw [ewSum_sq_snoc h0 h1 xs hne, Spec.ewDevs_snoc, List.map_append, List.map_cons, List.map_nil, Spec.ewSum_snoc,
        dev_shrinks h0 h1 xs hne, mul_pow]
      have hl : 1 ≤ xs.length := List.length_pos_iff.2 hne
      have hW' := Spec.norm_pos h0 h1 (n := xs.length + 1) (by simp)
      have hq : 0 ≤ 1 - f := by linarith
      have hp1 : (1 - f) ^ xs.length ≤ 1 - f := by
        calc (1 - f) ^ xs.length ≤ (1 - f) ^ 1 := pow_le_pow_of_le_one hq (by linarith) hl
          _ = 1 - f := pow_one _
      have hp0 : 0 ≤ (1 - f) ^ xs.length := pow_nonneg hq _
      set r := (1 - f) * (1 - (1 - f) ^ xs.length) / (1 - (1 - f) ^ (xs.length + 1)) with hr
      have r1 : r ≤ 1 - f := by
        rw [hr, div_le_iff₀ hW', pow_succ]
        refine mul_le_mul_of_nonneg_left ?_ hq
        have := mul_nonneg hp0 h0.le
        linarith
      have r2 : (1 - f) / (2 - f) ≤ r := by
        rw [hr, div_le_div_iff₀ (by linarith) hW', pow_succ, mul_assoc]
        refine mul_le_mul_of_nonneg_left ?_ hq
        have := mul_nonneg hp0 h0.le
        nlinarith
      have r0 : 0 ≤ r := le_trans (div_nonneg hq (by linarith)) r2
      have d0 : 0 ≤ f * r * (x - Spec.ewMean f xs) ^ 2 := mul_nonneg (mul_nonneg h0.le r0) (sq_nonneg _)
      have a1 := mul_le_mul_of_nonneg_left r1 d0
      have a2 := mul_le_mul_of_nonneg_left r2 d0
      have b1 := mul_le_mul_of_nonneg_left ih.1 hq
      have b2 := mul_le_mul_of_nonneg_left ih.2 hq
      constructor
      · nlinarith
      · nlinarith

theorem decay_variance_eq {f g : ℝ} (h0 : 0 < f) (h1 : f ≤ 1) (g0 : 0 < g) (g1 : g ≤ 1) (ops : List (Op ℝ))
    (hops : pushCount ops = (sinceClear ops).length) :
    (Variance.run (X.fin f) (X.fin g) (finOps ops) : Variance (E ε)).variance = X.fin (Spec_decayVariance f g (sinceClear ops)) := by
  rw [Variance.run_fin h0 h1, hops, Variance.variance_of g0 g1 (le_refl _), Spec_decayVariance, Spec.ewMean, List.length_map,
    Spec.length_ewDevs]

/-- C131, what holds: with the factor `f` for both levels `variance()` lies between `(1-f)/(2-f)` and `1-f` times the exponentially
weighted variance. -/
theorem C131_decay_variance_partial {f : ℝ} (h0 : 0 < f) (h1 : f ≤ 1) (ops : List (Op ℝ))
    (hops : pushCount ops = (sinceClear ops).length) :
    ∃ v : ℝ, (Variance.run (X.fin f) (X.fin f) (finOps ops) : Variance (E ε)).variance = X.fin v
      ∧ (1 - f) / (2 - f) * Spec_ewVariance f (sinceClear ops) ≤ v ∧ v ≤ (1 - f) * Spec_ewVariance f (sinceClear ops) := by
  refine ⟨Spec_decayVariance f f (sinceClear ops), ?_, ?_⟩
  · exact decay_variance_eq h0 h1 h0 h1 ops hops
  · obtain ⟨a, b⟩ := decaySum_bounds h0 h1 (sinceClear ops)
    have hW : 0 ≤ 1 - (1 - f) ^ (sinceClear ops).length := by
      have := pow_le_one₀ (n := (sinceClear ops).length) (show 0 ≤ 1 - f by linarith) (by linarith)
      linarith
    have e1 : Spec_ewVariance f (sinceClear ops)
        = Spec.ewSum f ((sinceClear ops).map fun y => (y - Spec.ewMean f (sinceClear ops)) ^ 2)
          / (1 - (1 - f) ^ (sinceClear ops).length) := by
      rw [Spec_ewVariance, Spec.ewMean.eq_def f (List.map _ _), List.length_map]
    have e2 : Spec_decayVariance f f (sinceClear ops)
        = Spec.ewSum f ((Spec.ewDevs f (sinceClear ops)).map (· ^ 2)) / (1 - (1 - f) ^ (sinceClear ops).length) := by
      rw [Spec_decayVariance, Spec.ewMean, List.length_map, Spec.length_ewDevs]
    rw [e1, e2, ← mul_div_assoc, ← mul_div_assoc]
    exact ⟨div_le_div_of_nonneg_right a hW, div_le_div_of_nonneg_right b hW⟩

/-- The values 0 and 1 with the factor 1/2 attain the lower bound: 2/27 instead of 2/9. -/
example : (Variance.run (X.fin (1 / 2)) (X.fin (1 / 2)) (finOps [.push 0, .push 1]) : Variance (E ε)).variance = X.fin (2 / 27)
    ∧ Spec_ewVariance (1 / 2) [0, 1] = 2 / 9 := by
  constructor
  · rw [decay_variance_eq (by norm_num) (by norm_num) (by norm_num) (by norm_num) _ rfl, X.fin_inj]
    have e : sinceClear [.push 0, .push 1] = ([0, 1] : List ℝ) := rfl
    rw [e, Spec_decayVariance, Spec.ewMean, ewDevs_zero_one (by norm_num) (by norm_num)]
    simp [Spec.ewSum, List.range_succ]
    norm_num
  · simp [Spec_ewVariance, Spec.ewMean, Spec.ewSum, List.range_succ]
    norm_num

/-- C131 is violated whenever the exponentially weighted variance is positive: the result is too small at least by the factor `1-f`. -/
theorem C131_too_small {f : ℝ} (h0 : 0 < f) (h1 : f ≤ 1) (ops : List (Op ℝ)) (hops : pushCount ops = (sinceClear ops).length)
    (hv : 0 < Spec_ewVariance f (sinceClear ops)) :
    (Variance.run (X.fin f) (X.fin f) (finOps ops) : Variance (E ε)).variance ≠ X.fin (Spec_ewVariance f (sinceClear ops)) := by
  obtain ⟨v, e, -, b⟩ := C131_decay_variance_partial (ε := ε) h0 h1 ops hops
  rw [e]
  intro h
  rw [X.fin_inj] at h
  nlinarith

theorem C131_decay_variance_violated : ¬ C131_Statement ε := by
  intro h
  refine C131_too_small (ε := ε) (f := 1 / 2) (by norm_num) (by norm_num) [.push 0, .push 1] rfl ?_
    (h (1 / 2) (by norm_num) (by norm_num) _ rfl)
  have e : sinceClear [.push 0, .push 1] = ([0, 1] : List ℝ) := rfl
  rw [e]
  simp [Spec_ewVariance, Spec.ewMean, Spec.ewSum, List.range_succ]
  norm_num

/-! ### C132 -/

/-- The expectation of the squared deviation that the code adds for the value number `k + 1`, in units of the variance of the data. -/
noncomputable def devShare (f : ℝ) (k : ℕ) : ℝ :=
  2 * (1 - f) ^ 2 / (2 - f) * ((1 - (1 - f) ^ k) / (1 - (1 - f) ^ (k + 1)))

theorem dev_stats {f : ℝ} (h0 : 0 < f) (h1 : f ≤ 1) {xs : List (Ω → ℝ)} {x : Ω → ℝ} {m s : ℝ} (h : Uncorrelated (xs ++ [x]) P s)
    (hm : ∀ Y ∈ xs ++ [x], ∫ ω, Y ω ∂P = m) :
    Integrable (fun ω => (x ω - Spec.ewMean f (seen (xs ++ [x]) ω)) ^ 2) P
    ∧ ∫ ω, (x ω - Spec.ewMean f (seen (xs ++ [x]) ω)) ^ 2 ∂P = s * devShare f xs.length := by
  have hq : 0 ≤ 1 - f := by linarith
  by_cases hne : xs = []
  · subst hne
    have e : ∀ y : ℝ, Spec.ewMean f [y] = y := fun y => by simp [Spec.ewMean, Spec.ewSum, h0.ne']
    simp [seen, e, devShare]
  · have hl : 1 ≤ xs.length := List.length_pos_iff.2 hne
    have hx : MemLp x 2 P := h.memLp x (by simp)
    have hU : Uncorrelated xs P s := h.sublist (List.sublist_append_left ..)
    have hmx : ∀ Y ∈ xs, ∫ ω, Y ω ∂P = m := fun Y hY => hm Y (by simp [hY])
    obtain ⟨w1, w2⟩ := ew_weights h0 h1 hl
    obtain ⟨a1, a2, a3, a4⟩ := lin_stats ((List.range xs.length).map
      fun i => f * (1 - f) ^ (xs.length - 1 - i) / (1 - (1 - f) ^ xs.length)) hU (by simp)
    rw [lin_mean _ hmx (by simp), w1, mul_one] at a2
    rw [w2] at a3
    have e : ∀ ω, lin ((List.range xs.length).map fun i => f * (1 - f) ^ (xs.length - 1 - i) / (1 - (1 - f) ^ xs.length)) (seen xs ω)
        = Spec.ewMean f (seen xs ω) := fun ω => by rw [ewMean_eq_lin, seen_length]
    simp only [e] at a1 a2 a3 a4
    have hc : cov[x, fun ω => Spec.ewMean f (seen xs ω); P] = 0 := by
      refine a4 x hx fun Z hZ => ?_
      have := (List.pairwise_append.1 h.uncorr).2.2 Z hZ x (by simp)
      rwa [covariance_comm]
    have hv : Var[fun ω => x ω - Spec.ewMean f (seen xs ω); P]
        = s + s * (f / (2 - f) * ((1 + (1 - f) ^ xs.length) / (1 - (1 - f) ^ xs.length))) := by
      have := variance_fun_sub hx a1
      rw [this, hc, a3, h.var x (by simp)]; ring
    have hd : MemLp (fun ω => x ω - Spec.ewMean f (seen xs ω)) 2 P := hx.sub a1
    have hmean : ∫ ω, (x ω - Spec.ewMean f (seen xs ω)) ∂P = 0 := by
      rw [integral_sub (hx.integrable (by norm_num)) (a1.integrable (by norm_num)), a2, hm x (by simp), sub_self]
    have hsq : ∫ ω, (x ω - Spec.ewMean f (seen xs ω)) ^ 2 ∂P
        = s + s * (f / (2 - f) * ((1 + (1 - f) ^ xs.length) / (1 - (1 - f) ^ xs.length))) := by
      rw [← hv, variance_of_integral_eq_zero hd.aemeasurable hmean]
    have es : ∀ ω, (x ω - Spec.ewMean f (seen (xs ++ [x]) ω)) ^ 2
        = ((1 - f) * (1 - (1 - f) ^ xs.length) / (1 - (1 - f) ^ (xs.length + 1))) ^ 2 * (x ω - Spec.ewMean f (seen xs ω)) ^ 2 := by
      intro ω
      have := dev_shrinks h0 h1 (seen xs ω) (by simpa [seen] using hne) (x ω)
      rw [seen_length] at this
      rw [show seen (xs ++ [x]) ω = seen xs ω ++ [x ω] by simp [seen], this, mul_pow]
    simp only [es]
    refine ⟨hd.integrable_sq.const_mul _, ?_⟩
    rw [integral_const_mul, hsq, devShare]
    have hW := (Spec.norm_pos h0 h1 (n := xs.length) (by omega)).ne'
    have hW' := (Spec.norm_pos h0 h1 (n := xs.length + 1) (by simp)).ne'
    have h2 : 2 - f ≠ 0 := by linarith
    rw [pow_succ (1 - f) xs.length] at hW' ⊢
    generalize (1 - f) ^ xs.length = p at *
    obtain ⟨V, hV⟩ : ∃ V, V = 1 - p * (1 - f) := ⟨_, rfl⟩
    rw [← hV] at hW' ⊢
    field_simp
    rw [hV]
    ring

theorem devSum_stats {f : ℝ} (g : ℝ) (h0 : 0 < f) (h1 : f ≤ 1) {xs : List (Ω → ℝ)} {m s : ℝ} (h : Uncorrelated xs P s)
    (hm : ∀ Y ∈ xs, ∫ ω, Y ω ∂P = m) :
    Integrable (fun ω => Spec.ewSum g ((Spec.ewDevs f (seen xs ω)).map (· ^ 2))) P
    ∧ ∫ ω, Spec.ewSum g ((Spec.ewDevs f (seen xs ω)).map (· ^ 2)) ∂P = s * Spec.ewSum g ((List.range xs.length).map (devShare f)) := by
  induction xs using List.reverseRecOn with
  | nil => simp [seen, Spec.ewSum]
  | append_singleton xs x ih =>
    obtain ⟨i1, i2⟩ := ih (h.sublist (List.sublist_append_left ..)) fun Y hY => hm Y (by simp [hY])
    obtain ⟨d1, d2⟩ := dev_stats h0 h1 h hm
    have e : ∀ ω, Spec.ewSum g ((Spec.ewDevs f (seen (xs ++ [x]) ω)).map (· ^ 2))
        = (1 - g) * Spec.ewSum g ((Spec.ewDevs f (seen xs ω)).map (· ^ 2)) + g * (x ω - Spec.ewMean f (seen (xs ++ [x]) ω)) ^ 2 := by
      intro ω
      rw [show seen (xs ++ [x]) ω = seen xs ω ++ [x ω] by simp [seen], Spec.ewDevs_snoc, List.map_append, List.map_cons, List.map_nil,
        Spec.ewSum_snoc]
    simp only [e]
    refine ⟨(i1.const_mul _).add (d1.const_mul _), ?_⟩
    rw [integral_add (i1.const_mul _) (d1.const_mul _), integral_const_mul, integral_const_mul, i2, d2, List.length_append,
      List.length_singleton, List.range_succ, List.map_append, List.map_cons, List.map_nil, Spec.ewSum_snoc]
    ring

/-- C132: the expectation of `variance()` of uncorrelated data with variance `s` is `s` times a number that depends on the factors and
the number of values only; it tends to `2(1-f)²/(2-f)` with the number of values. -/
theorem C132_expectation {f g : ℝ} (h0 : 0 < f) (h1 : f ≤ 1) (g0 : 0 < g) (g1 : g ≤ 1) :
    ∃ share : ℕ → ℝ, Tendsto share atTop (𝓝 (2 * (1 - f) ^ 2 / (2 - f)))
      ∧ (∀ n, share n = Spec.ewMean g ((List.range n).map (devShare f)))
      ∧ ∀ (ops : List (Op (Ω → ℝ))) (m s : ℝ), pushCount ops = (sinceClear ops).length → Uncorrelated (sinceClear ops) P s →
        (∀ Y ∈ sinceClear ops, ∫ ω, Y ω ∂P = m) →
        HasMean (fun ω => some (Variance.run (X.fin f) (X.fin g) (finOps (observed ops ω)) : Variance (E ε)).variance) P
          (share (sinceClear ops).length * s) := by
  refine ⟨fun n => Spec.ewMean g ((List.range n).map (devShare f)), ewMean_tendsto g0 g1 ?_, fun _ => rfl, ?_⟩
  · have n1 := norm_tendsto h0 h1
    have n2 := (tendsto_add_atTop_iff_nat (f := fun n : ℕ => 1 - (1 - f) ^ n) 1).2 n1
    have := (n1.div n2 one_ne_zero).const_mul (2 * (1 - f) ^ 2 / (2 - f))
    rw [div_one, mul_one] at this
    exact this
  · intro ops m s hops hU hm
    obtain ⟨i1, i2⟩ := devSum_stats g h0 h1 hU hm
    refine ⟨_, i1.div_const (1 - (1 - g) ^ (sinceClear ops).length), fun ω => ?_, ?_⟩
    · beta_reduce
      have hp : pushCount (observed ops ω) = pushCount ops := pushCount_map ..
      rw [decay_variance_eq h0 h1 g0 g1 _ (by rw [hp, hops, sinceClear_observed, seen_length]), sinceClear_observed,
        Spec_decayVariance, Spec.ewMean, List.length_map, Spec.length_ewDevs, seen_length]
    · rw [integral_div, i2]
      simp only [Spec.ewMean, List.length_map, List.length_range]
      ring

/-- The factor is below 1: the variance is underestimated however long one waits. -/
theorem C132_underestimates {f : ℝ} (h0 : 0 < f) (h1 : f ≤ 1) : 2 * (1 - f) ^ 2 / (2 - f) < 1 := by
  rw [div_lt_one (by linarith)]
  nlinarith

/-- C132, as stated: the variance is estimated correctly in the long run. -/
def C132_Statement (ε : ℝ) : Prop :=
  ∀ f g : ℝ, 0 < f → f ≤ 1 → 0 < g → g ≤ 1 → ∀ (Ω : Type) (_ : MeasurableSpace Ω) (P : Measure Ω) (_ : IsProbabilityMeasure P)
    (Z : ℕ → Ω → ℝ), IID Z P → MemLp (Z 0) 2 P →
    ∃ v : ℕ → ℝ, (∀ n, HasMean (fun ω => some (Variance.run (X.fin f) (X.fin g) (finOps (observed ((firstN Z n).map .push) ω))
        : Variance (E ε)).variance) P (v n)) ∧ Tendsto v atTop (𝓝 Var[Z 0; P])
theorem C132_violated : ¬ C132_Statement ε := by
  intro h
  have h0 : (0 : ℝ) ≤ 1 / 4 := by norm_num
  have h1 : (1 / 4 : ℝ) ≤ 1 := by norm_num
  have hp := coin_prob (a := (1 : ℝ)) (b := 5) h0 h1
  have hm := coin_moments (a := 1) (b := 5) h0 h1 2
  have h2 := eval_memLp (coin (1 / 4) (1 : ℝ) 5) (coin_memLp h0 h1 measurable_id' 2)
  have hid := iid_eval (coin (1 / 4) (1 : ℝ) 5)
  obtain ⟨v, hv, ht⟩ := h (1 / 2) (1 / 2) (by norm_num) (by norm_num) (by norm_num) (by norm_num) _ _ _ inferInstance _ hid h2
  obtain ⟨share, hs, -, he⟩ := C132_expectation (ε := ε) (P := Measure.infinitePi fun _ : ℕ => coin (1 / 4) (1 : ℝ) 5)
    (f := 1 / 2) (g := 1 / 2) (by norm_num) (by norm_num) (by norm_num) (by norm_num)
  have e : ∀ n, v n = share n * Var[fun ω : ℕ → ℝ => ω 0; Measure.infinitePi fun _ : ℕ => coin (1 / 4) (1 : ℝ) 5] := by
    intro n
    obtain ⟨u1, u2⟩ := hid.uncorrelated h2 n
    have hsc := sinceClear_pushes (firstN (fun i (ω : ℕ → ℝ) => ω i) n)
    have := he ((firstN (fun i (ω : ℕ → ℝ) => ω i) n).map .push) _ _ (by rw [hsc, pushCount_pushes]) (by rw [hsc]; exact u1)
      (by rw [hsc]; exact u2)
    rw [hsc, firstN_length] at this
    exact (hv n).unique this
  have hvar : Var[fun ω : ℕ → ℝ => ω 0; Measure.infinitePi fun _ : ℕ => coin (1 / 4) (1 : ℝ) 5] = 3 := by
    rw [variance_eq_integral h2.1.aemeasurable]
    refine Eq.trans ?_ (hm.2.trans ?_)
    · rfl
    · norm_num
  have hlim := hs.mul_const (3 : ℝ)
  rw [hvar] at ht
  have : v = fun n => share n * 3 := by funext n; rw [e, hvar]
  rw [this] at ht
  have := tendsto_nhds_unique ht hlim
  norm_num at this

/-- Throws of a coin with the sides 1 and 5 (variance 3), both factors 1/2: the expectation after two throws is 3 * 4/27, in the long run
it is 3 * 1/3. -/
example : ∃ (P : Measure (ℕ → ℝ)) (_ : IsProbabilityMeasure P) (xs : List ((ℕ → ℝ) → ℝ)), xs.length = 2
    ∧ HasMean (fun ω => some (Variance.run (X.fin (1 / 2)) (X.fin (1 / 2)) (finOps (observed (xs.map .push) ω)) : Variance (E ε)).variance)
        P (3 * (4 / 27)) := by
  obtain ⟨P, hP, hu, hm⟩ := coin_throws 2
  have hl : (firstN (fun i (ω : ℕ → ℝ) => ω i) 2).length = 2 := firstN_length ..
  have hs := sinceClear_pushes (firstN (fun i (ω : ℕ → ℝ) => ω i) 2)
  obtain ⟨share, -, hs', he⟩ := C132_expectation (ε := ε) (P := P) (f := 1 / 2) (g := 1 / 2) (by norm_num) (by norm_num) (by norm_num)
    (by norm_num)
  have := he ((firstN (fun i (ω : ℕ → ℝ) => ω i) 2).map .push) 4 3 (by rw [hs, pushCount_pushes]) (by rw [hs]; exact hu)
    (by rw [hs]; exact hm)
  rw [hs, hl, hs'] at this
  refine ⟨P, hP, _, hl, ?_⟩
  convert this using 1
  simp [Spec.ewMean, Spec.ewSum, List.range_succ, devShare]
  norm_num

end Verif.Props
