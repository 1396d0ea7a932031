import Verif.Props.Unbiased
import Verif.Proofs.KStatistics
/-
C144, C145: bias corrections of skewness and kurtosis; variance of the variance.
-/
namespace Verif.Spec

/-- Fisher's third k-statistic. -/
noncomputable def kThree (xs : List ℝ) : ℝ := xs.length * central 3 xs / ((xs.length - 1) * (xs.length - 2))

/-- Fisher's fourth k-statistic. -/
noncomputable def kFour (xs : List ℝ) : ℝ :=
  xs.length ^ 2 * ((xs.length + 1) * (central 4 xs / xs.length) - 3 * (xs.length - 1) * (central 2 xs / xs.length) ^ 2)
    / ((xs.length - 1) * (xs.length - 2) * (xs.length - 3))

end Verif.Spec

namespace Verif.Props
open MeasureTheory ProbabilityTheory Verif.Stochastic Exact
open scoped ENNReal

variable {ε : ℝ} {w N : ℕ} {Ω : Type} {mΩ : MeasurableSpace Ω} {P : Measure Ω}

theorem seen_firstN {β : Type} (Z : ℕ → Ω → β) (n : ℕ) (ω : Ω) : seen (firstN Z n) ω = firstN (fun i => Z i ω) n := by
  simp [seen, firstN, Function.comp_def]

theorem sqrt_cube_ratio {v n : ℝ} (hv : 0 < v) (hn : 1 < n) :
    Real.sqrt (n * v / (n - 1)) ^ 3 = n * v / (n - 1) * Real.sqrt (n * (n - 1)) * Real.sqrt v / (n - 1) := by
  have h1 : 0 < n - 1 := by linarith
  have e : n * v / (n - 1) = (n * (n - 1)) * v / (n - 1) ^ 2 := by field_simp
  have hs : Real.sqrt (n * v / (n - 1)) = Real.sqrt (n * (n - 1)) * Real.sqrt v / (n - 1) := by
    rw [e, Real.sqrt_div (by positivity), Real.sqrt_sq h1.le, Real.sqrt_mul (by positivity)]
  rw [pow_succ, Real.sq_sqrt (by positivity), hs]
  ring

/-- The corrected skewness is the third k-statistic divided by the third power of the root of the sample variance. -/
theorem corrected_skewness {xs : List ℝ} (hn : 3 ≤ xs.length) (h2 : 0 < Spec.central 2 xs) :
    Spec.skewness xs * Real.sqrt (xs.length * (xs.length - 1)) / (xs.length - 2)
      = Spec.kThree xs / Real.sqrt (Spec.sampleVariance xs) ^ 3 := by
  have hn' : (3 : ℝ) ≤ xs.length := by exact_mod_cast hn
  generalize hN : (xs.length : ℝ) = n at *
  have hv : 0 < Spec.variance xs := by rw [Spec.variance, hN]; positivity
  have e : Spec.sampleVariance xs = n * Spec.variance xs / (n - 1) := by
    rw [Spec.sampleVariance, Spec.variance, hN]; field_simp
  have hs1 : 0 < Real.sqrt (n * (n - 1)) := Real.sqrt_pos.2 (mul_pos (by linarith) (by linarith))
  have hs2 : 0 < Real.sqrt (Spec.variance xs) := Real.sqrt_pos.2 hv
  have hq1 : Real.sqrt (n * (n - 1)) ^ 2 = n * (n - 1) := Real.sq_sqrt (mul_nonneg (by linarith) (by linarith))
  have hq2 : Real.sqrt (Spec.variance xs) ^ 2 = Spec.variance xs := Real.sq_sqrt hv.le
  rw [e, sqrt_cube_ratio hv (by linarith), Spec.skewness, Spec.kThree, hN]
  have h1 : n - 1 ≠ 0 := by linarith
  have h2 : n - 2 ≠ 0 := by linarith
  have h0 : n ≠ 0 := by linarith
  generalize Real.sqrt (n * (n - 1)) = A at *
  generalize Real.sqrt (Spec.variance xs) = V at *
  rw [← hq2]
  rw [div_mul_eq_mul_div, div_div, div_div, div_eq_div_iff (by positivity) ?_]
  · field_simp
    linear_combination (Spec.central 3 xs) * hq1
  · have : 0 < n - 1 := by linarith
    have : 0 < n - 2 := by linarith
    positivity

/-- The corrected kurtosis is 3 plus the fourth k-statistic divided by the square of the sample variance. -/
theorem corrected_kurtosis {xs : List ℝ} (hn : 4 ≤ xs.length) (h2 : 0 < Spec.central 2 xs) :
    3 + ((xs.length : ℝ) - 1) / ((xs.length - 2) * (xs.length - 3)) * ((xs.length + 1) * Spec.kurtosis xs - 3 * (xs.length - 1))
      = 3 + Spec.kFour xs / Spec.sampleVariance xs ^ 2 := by
  have hn' : (4 : ℝ) ≤ xs.length := by exact_mod_cast hn
  rw [Spec.kurtosis, Spec.kFour, Spec.sampleVariance, Spec.variance]
  generalize (xs.length : ℝ) = n at *
  generalize Spec.central 2 xs = V at *
  have h1 : n - 1 ≠ 0 := by linarith
  have h2' : n - 2 ≠ 0 := by linarith
  have h3 : n - 3 ≠ 0 := by linarith
  have h0 : n ≠ 0 := by linarith
  field_simp

variable [IsProbabilityMeasure P]

/-! ### C144 -/

/-- C144: the values of `unbiased_skewness()` are quotients of unbiased estimates. -/
theorem C144_unbiased_skewness (hε : 0 < ε) {Z : ℕ → Ω → ℝ} (hZ : Sample Z P) (h3 : MemLp (Z 0) 3 P) {n : ℕ}
    {ops : List (Op (Ω → ℝ))} (hs : sinceClear ops = firstN Z n) (hn : 3 ≤ n) (hw : n * n < 2 ^ w) :
    let xs := fun ω => seen (sinceClear ops) ω
    Ex (fun ω => Spec.kThree (xs ω)) P (moment (Z 0) P 3)
    ∧ Ex (fun ω => Spec.sampleVariance (xs ω)) P (moment (Z 0) P 2)
    ∧ ∀ ω, (Cumulative.Skewness.run (finOps (observed ops ω)) : Cumulative.Skewness w (E ε)).unbiasedSkewness
        = X.fin (if Spec.central 3 (xs ω) < ε then 0 else Spec.kThree (xs ω) / Real.sqrt (Spec.sampleVariance (xs ω)) ^ 3) := by
  intro xs
  have hx : ∀ ω, xs ω = firstN (fun i => Z i ω) n := fun ω => by rw [← seen_firstN, ← hs]
  have hl : ∀ ω, (xs ω).length = n := fun ω => by rw [hx, firstN_length]
  have hn' : (3 : ℝ) ≤ n := by exact_mod_cast hn
  have h1 : (n : ℝ) - 1 ≠ 0 := by linarith
  have h2 : (n : ℝ) - 2 ≠ 0 := by linarith
  have h0 : (n : ℝ) ≠ 0 := by linarith
  have h3' : MemLp (Z 0) (3 : ℕ) P := by exact_mod_cast h3
  have h2' : MemLp (Z 0) (2 : ℕ) P := h3'.mono_exponent (by norm_num)
  refine ⟨?_, ?_, fun ω => ?_⟩
  · refine ((hZ.ex_central_three h3' (n := n) (by omega)).smul (n / ((n - 1) * (n - 2)))).congr (fun ω => ?_) ?_
    · rw [Spec.kThree, hl, hx]; ring
    · field_simp
  · refine ((hZ.ex_central_two h2' (n := n) (by omega)).smul (1 / (n - 1))).congr (fun ω => ?_) ?_
    · rw [Spec.sampleVariance, hl, hx]; ring
    · field_simp
  · have hsc : sinceClear (observed ops ω) = xs ω := sinceClear_observed ops ω
    obtain ⟨g, hg, hu⟩ := C05_unbiased_skewness (w := w) hε (observed ops ω) (by rw [hsc, hl]; exact hw)
    rw [skewness_result hε _ (by rw [hsc, hl]; nlinarith), X.fin_inj] at hg
    simp only [hsc, hl] at hg hu
    rw [hu, if_neg (by omega), ← hg]
    split_ifs with hc
    · simp
    · have hpos : 0 < Spec.central 2 (xs ω) := by
        refine lt_of_le_of_ne (Spec.central_two_nonneg _) fun e => hc ?_
        rw [central_three_of_two e.symm]; exact hε
      have := corrected_skewness (xs := xs ω) (by rw [hl]; exact hn) hpos
      rw [hl] at this
      rw [this]

/-- C144: the values of `unbiased_kurtosis()` are quotients of unbiased estimates. -/
theorem C144_unbiased_kurtosis (hε : 0 < ε) {Z : ℕ → Ω → ℝ} (hZ : Sample Z P) (h4 : MemLp (Z 0) 4 P) {n : ℕ}
    {ops : List (Op (Ω → ℝ))} (hs : sinceClear ops = firstN Z n) (hn : 4 ≤ n) (hw : n * n < 2 ^ w) :
    let xs := fun ω => seen (sinceClear ops) ω
    Ex (fun ω => Spec.kFour (xs ω)) P (moment (Z 0) P 4 - 3 * moment (Z 0) P 2 ^ 2)
    ∧ Ex (fun ω => Spec.sampleVariance (xs ω)) P (moment (Z 0) P 2)
    ∧ ∀ ω, (Cumulative.Kurtosis.run (finOps (observed ops ω)) : Cumulative.Kurtosis w (E ε)).unbiasedKurtosis
        = X.fin (if Spec.central 4 (xs ω) < ε then 0 else 3 + Spec.kFour (xs ω) / Spec.sampleVariance (xs ω) ^ 2) := by
  intro xs
  have hx : ∀ ω, xs ω = firstN (fun i => Z i ω) n := fun ω => by rw [← seen_firstN, ← hs]
  have hl : ∀ ω, (xs ω).length = n := fun ω => by rw [hx, firstN_length]
  have hn' : (4 : ℝ) ≤ n := by exact_mod_cast hn
  have h1 : (n : ℝ) - 1 ≠ 0 := by linarith
  have h2 : (n : ℝ) - 2 ≠ 0 := by linarith
  have h3 : (n : ℝ) - 3 ≠ 0 := by linarith
  have h0 : (n : ℝ) ≠ 0 := by linarith
  have h4' : MemLp (Z 0) (4 : ℕ) P := by exact_mod_cast h4
  have h2' : MemLp (Z 0) (2 : ℕ) P := h4'.mono_exponent (by norm_num)
  refine ⟨?_, ?_, fun ω => ?_⟩
  · obtain ⟨e4, e22⟩ := hZ.ex_central_four h4' (n := n) (by omega)
    refine ((e4.smul (n * (n + 1) / ((n - 1) * (n - 2) * (n - 3)))).add
      (e22.smul (-3 * (n - 1) / ((n - 1) * (n - 2) * (n - 3))))).congr (fun ω => ?_) ?_
    · rw [Spec.kFour, hl, hx]; field_simp; ring
    · field_simp; ring
  · refine ((hZ.ex_central_two h2' (n := n) (by omega)).smul (1 / (n - 1))).congr (fun ω => ?_) ?_
    · rw [Spec.sampleVariance, hl, hx]; ring
    · field_simp
  · have hsc : sinceClear (observed ops ω) = xs ω := sinceClear_observed ops ω
    obtain ⟨g, hg, hu⟩ := C05_unbiased_kurtosis (w := w) hε (observed ops ω) (by rw [hsc, hl]; exact hw)
    have hk := C04_kurtosis (w := w) hε (observed ops ω) (by rw [hsc, hl]; exact hw)
    dsimp only at hk hu
    simp only [hsc, hl] at hk hu
    rw [hu]
    by_cases hc : Spec.central 4 (xs ω) < ε
    · rw [if_pos hc, if_pos (Or.inr hc)]
    · rw [if_neg hc, if_neg (by rintro (h | h) <;> [omega; exact hc h])]
      have hg' := (hk.2 (not_lt.1 hc)).1
      rw [hg, X.fin_inj] at hg'
      have hpos : 0 < Spec.central 2 (xs ω) := by
        refine lt_of_le_of_ne (Spec.central_two_nonneg _) fun e => hc ?_
        rw [central_four_of_two e.symm]; exact hε
      have := corrected_kurtosis (xs := xs ω) (by rw [hl]; exact hn) hpos
      rw [hl] at this
      rw [hg', this]

/-! ### C145 -/

theorem ex_memLp {f : Ω → ℝ} {a b : ℝ} (hm : AEStronglyMeasurable f P) (h1 : Ex f P a) (h2 : Ex (fun ω => f ω ^ 2) P b) :
    MemLp f 2 P ∧ Var[f; P] = b - a ^ 2 := by
  have hL : MemLp f 2 P := (memLp_two_iff_integrable_sq hm).2 h2.1
  refine ⟨hL, ?_⟩
  rw [variance_eq_sub hL]
  simp only [Pi.pow_apply]
  rw [h2.2, h1.2]

/-- The variance of the sample variance. -/
noncomputable def varVar (n : ℕ) (s k : ℝ) : ℝ := k / n - (n - 3) / (n * (n - 1)) * s ^ 2

theorem central_two_var {Z : ℕ → Ω → ℝ} (hZ : Sample Z P) (h4 : MemLp (Z 0) 4 P) {n : ℕ} (hn : 2 ≤ n) :
    MemLp (fun ω => Spec.central 2 (firstN (fun i => Z i ω) n)) 2 P
    ∧ ∫ ω, Spec.central 2 (firstN (fun i => Z i ω) n) ∂P = (n - 1) * moment (Z 0) P 2
    ∧ Var[fun ω => Spec.central 2 (firstN (fun i => Z i ω) n); P]
      = (n - 1) ^ 2 * varVar n (moment (Z 0) P 2) (moment (Z 0) P 4) := by
  have hn' : (2 : ℝ) ≤ n := by exact_mod_cast hn
  have h1 : (n : ℝ) - 1 ≠ 0 := by linarith
  have h0 : (n : ℝ) ≠ 0 := by linarith
  have h4' : MemLp (Z 0) (4 : ℕ) P := by exact_mod_cast h4
  have h2' : MemLp (Z 0) (2 : ℕ) P := h4'.mono_exponent (by norm_num)
  have e2 := hZ.ex_central_two h2' (n := n) (by omega)
  have e22 := (hZ.ex_central_four h4' (n := n) (by omega)).2
  obtain ⟨a, b⟩ := ex_memLp e2.1.aestronglyMeasurable e2 e22
  refine ⟨a, e2.2, b.trans ?_⟩
  rw [varVar]
  field_simp
  ring

open Cumulative in
/-- C145: expectation and variance of `unbiased_variance()` and `variance()` of independent data. -/
theorem C145_variance {Z : ℕ → Ω → ℝ} (hZ : Sample Z P) (h4 : MemLp (Z 0) 4 P) {n : ℕ}
    {ops : List (Op (Ω → ℝ))} (hs : sinceClear ops = firstN Z n) (hn : 2 ≤ n) (hw : n < 2 ^ w) :
    HasMeanVar (fun ω => some (Variance.run (finOps (observed ops ω)) : Variance w (E ε)).unbiasedVariance) P
      Var[Z 0; P] (varVar n Var[Z 0; P] (moment (Z 0) P 4))
    ∧ HasMeanVar (fun ω => some (Variance.run (finOps (observed ops ω)) : Variance w (E ε)).variance) P
      ((n - 1) / n * Var[Z 0; P]) (((n - 1) / n) ^ 2 * varVar n Var[Z 0; P] (moment (Z 0) P 4)) := by
  have hV : Var[Z 0; P] = moment (Z 0) P 2 := variance_eq_integral h4.1.aemeasurable
  rw [hV]
  have hsc : ∀ ω, sinceClear (observed ops ω) = firstN (fun i => Z i ω) n := fun ω => by
    rw [sinceClear_observed, hs, seen_firstN]
  have hl : ∀ ω, (sinceClear (observed ops ω)).length = n := fun ω => by rw [hsc, firstN_length]
  have hn' : (2 : ℝ) ≤ n := by exact_mod_cast hn
  have h1 : (n : ℝ) - 1 ≠ 0 := by linarith
  have h0 : (n : ℝ) ≠ 0 := by linarith
  obtain ⟨a, b, c⟩ := central_two_var hZ h4 hn
  constructor
  · refine ⟨_, a.const_mul (1 / (n - 1) : ℝ), fun ω => ?_, ?_, ?_⟩
    · beta_reduce
      rw [((C02_variance (observed ops ω) (by rw [hl]; exact hw)).2 (by rw [hl]; exact hn)).1, hsc, Spec.sampleVariance, firstN_length]
      congr 2; ring
    · rw [integral_const_mul, b]; field_simp
    · rw [variance_const_mul, c]; field_simp
  · refine ⟨_, a.const_mul (1 / n : ℝ), fun ω => ?_, ?_, ?_⟩
    · beta_reduce
      rw [((C02_variance (observed ops ω) (by rw [hl]; exact hw)).1 (by rw [hl]; omega)).1, hsc, Spec.variance, firstN_length]
      congr 2; ring
    · rw [integral_const_mul, b]; field_simp
    · rw [variance_const_mul, c]; field_simp

omit [IsProbabilityMeasure P] in
/-- A later part of the data is independent data. -/
theorem Sample.shift {Z : ℕ → Ω → ℝ} (hZ : Sample Z P) (d : ℕ) : Sample (fun i => Z (i + d)) P :=
  ⟨hZ.indep.precomp (add_left_injective d), fun _ => hZ.meas _,
    fun i => (hZ.ident (i + d)).trans (hZ.ident (0 + d)).symm⟩

theorem lastN_firstN {β : Type} (Z : ℕ → β) (n N : ℕ) :
    Spec.lastN N (firstN Z n) = firstN (fun i => Z (i + (n - N))) (min N n) := by
  rw [Spec.lastN, firstN_length]
  apply List.ext_getElem
  · simp [firstN]; omega
  · intro i h1 h2
    simp [firstN, add_comm]

open Window in
/-- C145 for windows: `min(N, n)` values count. -/
theorem C145_window (hN : 1 ≤ N) {Z : ℕ → Ω → ℝ} (hZ : Sample Z P) (h4 : MemLp (Z 0) 4 P) {n : ℕ}
    {ops : List (Op (Ω → ℝ))} (hs : sinceClear ops = firstN Z n) (hn : 2 ≤ min N n) :
    let k := min N n
    HasMeanVar (fun ω => (Variance.run (finOps (observed ops ω)) : Option (Variance N (E ε))).map (·.unbiasedVariance)) P
      Var[Z 0; P] (varVar k Var[Z 0; P] (moment (Z 0) P 4))
    ∧ HasMeanVar (fun ω => (Variance.run (finOps (observed ops ω)) : Option (Variance N (E ε))).map (·.variance)) P
      ((k - 1) / k * Var[Z 0; P]) (((k - 1) / k) ^ 2 * varVar k Var[Z 0; P] (moment (Z 0) P 4)) := by
  intro k
  have hV : Var[Z 0; P] = moment (Z 0) P 2 := variance_eq_integral h4.1.aemeasurable
  rw [hV]
  have hsc : ∀ ω, Spec.lastN N (sinceClear (observed ops ω)) = firstN (fun i => Z (i + (n - N)) ω) k := fun ω => by
    rw [sinceClear_observed, hs, seen_firstN, lastN_firstN]
  have hl : ∀ ω, min N (sinceClear (observed ops ω)).length = k := fun ω => by
    rw [← Spec.length_lastN, hsc, firstN_length]
  have hl' : ∀ ω, (Spec.lastN N (sinceClear (observed ops ω))).length = k := fun ω => by rw [hsc, firstN_length]
  have hn' : (2 : ℝ) ≤ k := by exact_mod_cast hn
  have h1 : (k : ℝ) - 1 ≠ 0 := by linarith
  have h0 : (k : ℝ) ≠ 0 := by linarith
  have hid := hZ.ident (0 + (n - N))
  have hm : ∀ j, moment (Z (0 + (n - N))) P j = moment (Z 0) P j := fun j => by
    rw [moment, moment, hid.integral_eq]
    exact (hid.comp (u := fun z : ℝ => (z - ∫ ω', Z 0 ω' ∂P) ^ j) (by fun_prop)).integral_eq
  obtain ⟨a, b, c⟩ := central_two_var (Sample.shift hZ (n - N)) (hid.memLp_iff.2 h4) hn
  rw [hm] at b
  rw [hm, hm] at c
  change MemLp (fun ω => Spec.central 2 (firstN (fun i => Z (i + (n - N)) ω) k)) 2 P at a
  change ∫ ω, Spec.central 2 (firstN (fun i => Z (i + (n - N)) ω) k) ∂P = (k - 1) * moment (Z 0) P 2 at b
  change Var[fun ω => Spec.central 2 (firstN (fun i => Z (i + (n - N)) ω) k); P]
    = (k - 1) ^ 2 * varVar k (moment (Z 0) P 2) (moment (Z 0) P 4) at c
  have hk1 : 1 ≤ k := le_trans (by norm_num) hn
  constructor
  · refine ⟨_, a.const_mul (1 / (k - 1) : ℝ), fun ω => ?_, ?_, ?_⟩
    · beta_reduce
      obtain ⟨t, ht, -, -, hv, -⟩ := C19_window_variance (ε := ε) hN (observed ops ω)
      simp only [hsc, firstN_length] at hv
      rw [ht, Option.map_some, hv hn, Spec.sampleVariance, firstN_length]
      congr 2; ring
    · rw [integral_const_mul, b]; field_simp
    · rw [variance_const_mul, c]; field_simp
  · refine ⟨_, a.const_mul (1 / k : ℝ), fun ω => ?_, ?_, ?_⟩
    · beta_reduce
      obtain ⟨t, ht, hv, -⟩ := C19_window_variance (ε := ε) hN (observed ops ω)
      simp only [hsc, firstN_length] at hv
      rw [ht, Option.map_some, hv hk1, Spec.variance, firstN_length]
      congr 2; ring
    · rw [integral_const_mul, b]; field_simp
    · rw [variance_const_mul, c]; field_simp

/-! ### A case -/

theorem sample_eval (ν : Measure ℝ) [IsProbabilityMeasure ν] :
    Sample (fun i (ω : ℕ → ℝ) => ω i) (Measure.infinitePi fun _ : ℕ => ν) :=
  ⟨iIndepFun_infinitePi (P := fun _ : ℕ => ν) (X := fun _ => id) fun _ => measurable_id, fun i => measurable_pi_apply i,
    (iid_eval ν).ident⟩

/-- Four throws of a coin that shows 1 with probability 1/4 and otherwise 5: the central moments are 3, -6 and 21. -/
example (hε : 0 < ε) : ∃ (P : Measure (ℕ → ℝ)) (_ : IsProbabilityMeasure P) (ops : List (Op ((ℕ → ℝ) → ℝ))),
    (sinceClear ops).length = 4
    ∧ Ex (fun ω => Spec.kThree (seen (sinceClear ops) ω)) P (-6)
    ∧ Ex (fun ω => Spec.kFour (seen (sinceClear ops) ω)) P (-6)
    ∧ HasMeanVar (fun ω => some (Cumulative.Variance.run (finOps (observed ops ω)) : Cumulative.Variance 64 (E ε)).unbiasedVariance) P
        3 (9 / 2)
    ∧ HasMeanVar (fun ω => (Window.Variance.run (finOps (observed ops ω)) : Option (Window.Variance 2 (E ε))).map (·.unbiasedVariance)) P
        3 15 := by
  have h0 : (0 : ℝ) ≤ 1 / 4 := by norm_num
  have h1 : (1 / 4 : ℝ) ≤ 1 := by norm_num
  have hp := coin_prob (a := (1 : ℝ)) (b := 5) h0 h1
  let P := Measure.infinitePi fun _ : ℕ => coin (1 / 4) (1 : ℝ) 5
  let Z : ℕ → (ℕ → ℝ) → ℝ := fun i ω => ω i
  have hm : ∀ k, moment (Z 0) P k = 1 / 4 * (-3) ^ k + 3 / 4 := fun k => by
    have := (coin_moments (a := 1) (b := 5) h0 h1 k).2
    rw [show moment (Z 0) P k = _ from this]
    norm_num
  have hZ : Sample Z P := sample_eval _
  have h4 : MemLp (Z 0) 4 P := eval_memLp (coin (1 / 4) (1 : ℝ) 5) (coin_memLp h0 h1 measurable_id' 4)
  have h3 : MemLp (Z 0) 3 P := eval_memLp (coin (1 / 4) (1 : ℝ) 5) (coin_memLp h0 h1 measurable_id' 3)
  let ops : List (Op ((ℕ → ℝ) → ℝ)) := .push (Z 7) :: .clear :: pushFirst Z 4
  have hs : sinceClear ops = firstN Z 4 := rfl
  have hV : Var[Z 0; P] = 3 := by
    rw [variance_eq_integral h4.1.aemeasurable]
    refine (hm 2).trans (by norm_num)
  have a := (C144_unbiased_skewness (w := 64) hε hZ h3 hs (by norm_num) (by norm_num)).1
  have b := (C144_unbiased_kurtosis (w := 64) hε hZ h4 hs (by norm_num) (by norm_num)).1
  have c := (C145_variance (ε := ε) (w := 64) hZ h4 hs (by norm_num) (by norm_num)).1
  have d := (C145_window (ε := ε) (N := 2) (by norm_num) hZ h4 hs (by norm_num)).1
  rw [hm] at a
  rw [hm, hm] at b
  rw [hV, hm, varVar] at c d
  refine ⟨P, inferInstance, ops, by rw [hs, firstN_length], ?_, ?_, ?_, ?_⟩
  · exact a.congr (fun _ => rfl) (by norm_num)
  · exact b.congr (fun _ => rfl) (by norm_num)
  · norm_num at c ⊢; exact c
  · norm_num at d ⊢; exact d

end Verif.Props
