import Verif.Props.BiasCorrection
/-
C146: skewness of data from a symmetric distribution.
-/
namespace Verif.Props
open MeasureTheory ProbabilityTheory Verif.Stochastic Exact Cumulative
open scoped ENNReal

variable {ε : ℝ} {w : ℕ} {Ω : Type} {mΩ : MeasurableSpace Ω} {P : Measure Ω} [IsProbabilityMeasure P]

/-- The distribution of `Y` is symmetric about `c`. -/
def SymmetricAbout (Y : Ω → ℝ) (P : Measure Ω) (c : ℝ) : Prop := IdentDistrib Y (fun ω => 2 * c - Y ω) P P

/-- C146: for independent data from a symmetric distribution the expectation of `skewness()` is the skewness of the distribution,
zero. -/
def C146_Statement (w : ℕ) (ε : ℝ) : Prop :=
  ∀ (Ω : Type) (_ : MeasurableSpace Ω) (P : Measure Ω) (_ : IsProbabilityMeasure P) (Z : ℕ → Ω → ℝ) (c : ℝ) (n : ℕ)
    (ops : List (Op (Ω → ℝ))), Sample Z P → MemLp (Z 0) 3 P → SymmetricAbout (Z 0) P c → sinceClear ops = firstN Z n → 1 ≤ n →
    n < 2 ^ w → HasMean (fun ω => some (Skewness.run (finOps (observed ops ω)) : Skewness w (E ε)).skewness) P 0

theorem skewness_le {xs : List ℝ} (h2 : 0 < Spec.central 2 xs) : |Spec.skewness xs| ≤ Real.sqrt xs.length := by
  refine Real.abs_le_sqrt ?_
  linarith [Spec.pearson_moments h2, Spec.kurtosis_le h2]

omit [IsProbabilityMeasure P] in
theorem measurable_central {Z : ℕ → Ω → ℝ} (hZ : Sample Z P) {n : ℕ} (hn : n ≠ 0) :
    Measurable (fun ω => Spec.central 2 (firstN (fun i => Z i ω) n)) ∧ Measurable (fun ω => Spec.central 3 (firstN (fun i => Z i ω) n)) := by
  have hm := hZ.meas
  constructor
  · simp_rw [fun ω => Sample.central_two_psum (fun i => Z i ω) 0 hn]
    fun_prop
  · simp_rw [fun ω => Sample.central_three_psum (fun i => Z i ω) 0 hn]
    fun_prop

/-- C146: whatever the distribution, the expectation of `skewness()` is not negative, and it is zero only if `skewness()` is zero
with probability one. -/
theorem C146_skewness_partial (hε : 0 < ε) {Z : ℕ → Ω → ℝ} (hZ : Sample Z P) {n : ℕ} {ops : List (Op (Ω → ℝ))}
    (hs : sinceClear ops = firstN Z n) (hn : 1 ≤ n) (hw : n < 2 ^ w) :
    ∃ m : ℝ, 0 ≤ m ∧ HasMean (fun ω => some (Skewness.run (finOps (observed ops ω)) : Skewness w (E ε)).skewness) P m
      ∧ (m = 0 ↔ ∀ᵐ ω ∂P, Spec.central 3 (seen (sinceClear ops) ω) < ε) := by
  have hx : ∀ ω, seen (sinceClear ops) ω = firstN (fun i => Z i ω) n := fun ω => by rw [hs, seen_firstN]
  simp_rw [hx]
  obtain ⟨m2, m3⟩ := measurable_central hZ (n := n) (by omega)
  let g : Ω → ℝ := fun ω => if Spec.central 3 (firstN (fun i => Z i ω) n) < ε then 0 else Spec.skewness (firstN (fun i => Z i ω) n)
  have hpos : ∀ ω, ¬ Spec.central 3 (firstN (fun i => Z i ω) n) < ε → 0 < Spec.central 2 (firstN (fun i => Z i ω) n) := by
    intro ω hc
    refine lt_of_le_of_ne (Spec.central_two_nonneg _) fun e => hc ?_
    rw [central_three_of_two e.symm]; exact hε
  have hn0 : (0 : ℝ) < n := by exact_mod_cast hn
  have hsk : ∀ ω, ¬ Spec.central 3 (firstN (fun i => Z i ω) n) < ε → 0 < Spec.skewness (firstN (fun i => Z i ω) n) := by
    intro ω hc
    have h2 := hpos ω hc
    rw [Spec.skewness, Spec.variance, firstN_length]
    have : 0 < Spec.central 3 (firstN (fun i => Z i ω) n) := by linarith
    have : 0 < √(Spec.central 2 (firstN (fun i => Z i ω) n) / n) := Real.sqrt_pos.2 (by positivity)
    positivity
  have hg0 : ∀ ω, 0 ≤ g ω := by
    intro ω
    simp only [g]
    split_ifs with hc
    · exact le_rfl
    · exact (hsk ω hc).le
  have hgm : Measurable g := by
    refine Measurable.ite (measurableSet_lt m3 measurable_const) measurable_const ?_
    simp only [Spec.skewness, Spec.variance, firstN_length]
    fun_prop
  have hgi : Integrable g P := by
    refine Integrable.of_bound hgm.aestronglyMeasurable (Real.sqrt n) (Filter.Eventually.of_forall fun ω => ?_)
    rw [Real.norm_eq_abs]
    simp only [g]
    split_ifs with hc
    · rw [abs_zero]; exact Real.sqrt_nonneg _
    · have := skewness_le (hpos ω hc)
      rwa [firstN_length] at this
  refine ⟨∫ ω, g ω ∂P, integral_nonneg hg0, ⟨g, hgi, fun ω => ?_, rfl⟩, ?_⟩
  · beta_reduce
    rw [skewness_result hε _ (by rw [sinceClear_observed, hx, firstN_length]; exact hw), sinceClear_observed, hx]
  · rw [integral_eq_zero_iff_of_nonneg hg0 hgi]
    refine ⟨fun h => h.mono fun ω e => ?_, fun h => h.mono fun ω e => ?_⟩
    · by_contra hc
      have e' : g ω = 0 := e
      simp only [g, if_neg hc] at e'
      exact (hsk ω hc).ne' e'
    · show g ω = 0
      simp only [g, if_pos e]

/-! ### A fair coin -/

theorem coin_symmetric : SymmetricAbout (fun ω : ℕ → ℝ => ω 0) (Measure.infinitePi fun _ : ℕ => coin (1 / 2) (0 : ℝ) 3) (3 / 2) := by
  have h0 : (0 : ℝ) ≤ 1 / 2 := by norm_num
  have h1 : (1 / 2 : ℝ) ≤ 1 := by norm_num
  have hp := coin_prob (a := (0 : ℝ)) (b := 3) h0 h1
  have hm := measurePreserving_eval_infinitePi (fun _ : ℕ => coin (1 / 2) (0 : ℝ) 3) 0
  have hf : Measurable (fun x : ℝ => 2 * (3 / 2) - x) := by fun_prop
  refine ⟨hm.measurable.aemeasurable, (hf.comp hm.measurable).aemeasurable, ?_⟩
  rw [show (fun ω : ℕ → ℝ => 2 * (3 / 2) - ω 0) = (fun x : ℝ => 2 * (3 / 2) - x) ∘ (fun ω : ℕ → ℝ => ω 0) from rfl,
    ← Measure.map_map hf hm.measurable]
  rw [show Measure.map (fun ω : ℕ → ℝ => ω 0) (Measure.infinitePi fun _ : ℕ => coin (1 / 2) (0 : ℝ) 3) = coin (1 / 2) (0 : ℝ) 3 from
    hm.map_eq]
  rw [coin, Measure.map_add _ _ hf, Measure.map_smul, Measure.map_smul, Measure.map_dirac' hf, Measure.map_dirac' hf, add_comm]
  norm_num

/-- The first three throws are 0, 0, 3 with positive probability. -/
theorem coin_pattern {p : ℝ} (h0 : 0 < p) (h1 : p < 1) :
    Measure.infinitePi (fun _ : ℕ => coin p (0 : ℝ) 3) {ω | ω 0 = 0 ∧ ω 1 = 0 ∧ ω 2 = 3} ≠ 0 := by
  have hp := coin_prob (a := (0 : ℝ)) (b := 3) h0.le h1.le
  have hi := (sample_eval (coin p (0 : ℝ) 3)).indep
  let s : ℕ → Set ℝ := fun i => if i = 2 then {3} else {0}
  have hsm : ∀ i, MeasurableSet (s i) := fun i => by
    simp only [s]; split_ifs <;> exact measurableSet_singleton _
  have h := hi.measure_inter_preimage_eq_mul {0, 1, 2} (sets := s) (fun i _ => hsm i)
  have e : {ω : ℕ → ℝ | ω 0 = 0 ∧ ω 1 = 0 ∧ ω 2 = 3} = ⋂ i ∈ ({0, 1, 2} : Finset ℕ), (fun ω : ℕ → ℝ => ω i) ⁻¹' s i := by
    ext ω
    simp [s]
  have hq : ∀ i, Measure.infinitePi (fun _ : ℕ => coin p (0 : ℝ) 3) ((fun ω : ℕ → ℝ => ω i) ⁻¹' s i) ≠ 0 := by
    intro i
    have hm := measurePreserving_eval_infinitePi (fun _ : ℕ => coin p (0 : ℝ) 3) i
    rw [hm.measure_preimage (hsm i).nullMeasurableSet, coin]
    simp only [Measure.add_apply, Measure.smul_apply, smul_eq_mul, s]
    split_ifs
    · simp [h1]
    · simp [h0]
  rw [e, h]
  exact Finset.prod_ne_zero_iff.2 fun i _ => hq i

/-- C146 is violated: three throws of a fair coin. -/
theorem C146_skewness_violated (hw : 2 ≤ w) (hε : 0 < ε) (hε1 : ε ≤ 1) : ¬ C146_Statement w ε := by
  intro hst
  have h0 : (0 : ℝ) ≤ 1 / 2 := by norm_num
  have h1 : (1 / 2 : ℝ) ≤ 1 := by norm_num
  have hp := coin_prob (a := (0 : ℝ)) (b := 3) h0 h1
  let P := Measure.infinitePi fun _ : ℕ => coin (1 / 2) (0 : ℝ) 3
  let Z : ℕ → (ℕ → ℝ) → ℝ := fun i ω => ω i
  have hZ : Sample Z P := sample_eval _
  have h3 : MemLp (Z 0) 3 P := eval_memLp (coin (1 / 2) (0 : ℝ) 3) (coin_memLp h0 h1 measurable_id' 3)
  have hl : 3 < 2 ^ w := lt_of_lt_of_le (by norm_num) (Nat.pow_le_pow_right (by norm_num : 1 ≤ 2) hw)
  have hs : sinceClear (pushFirst Z 3) = firstN Z 3 := sinceClear_pushFirst Z 3
  have A := hst _ _ P inferInstance Z (3 / 2) 3 (pushFirst Z 3) hZ h3 coin_symmetric hs (by norm_num) hl
  obtain ⟨m, -, B, C⟩ := C146_skewness_partial hε hZ hs (by norm_num) hl
  have hae := C.1 (B.unique A)
  refine coin_pattern (p := 1 / 2) (by norm_num) (by norm_num) (measure_mono_null ?_ hae)
  rintro ω ⟨a, b, c⟩
  simp only [Set.mem_compl_iff, Set.mem_ofPred_eq, not_lt, hs, seen_firstN]
  have : firstN (fun i => Z i ω) 3 = [0, 0, 3] := by simp [firstN, List.range_succ, Z, a, b, c]
  rw [this]
  have h6 : Spec.central 3 [0, 0, 3] = 6 := by simp [Spec.central, Spec.mean]; norm_num
  rw [h6]; linarith

/-- The expectation is positive for the fair coin. -/
example (hε : 0 < ε) (hε1 : ε ≤ 1) : ∃ (P : Measure (ℕ → ℝ)) (_ : IsProbabilityMeasure P) (m : ℝ), 0 < m
    ∧ HasMean (fun ω => some (Skewness.run (finOps (observed (pushFirst (fun i (ω : ℕ → ℝ) => ω i) 3) ω)) : Skewness 64 (E ε)).skewness) P m := by
  have hp := coin_prob (a := (0 : ℝ)) (b := 3) (p := 1 / 2) (by norm_num) (by norm_num)
  let Z : ℕ → (ℕ → ℝ) → ℝ := fun i ω => ω i
  have hs : sinceClear (pushFirst Z 3) = firstN Z 3 := sinceClear_pushFirst Z 3
  obtain ⟨m, h, B, C⟩ := C146_skewness_partial (w := 64) hε (sample_eval (coin (1 / 2) (0 : ℝ) 3)) hs (by norm_num) (by norm_num)
  refine ⟨_, inferInstance, m, lt_of_le_of_ne h fun e => ?_, B⟩
  refine coin_pattern (p := 1 / 2) (by norm_num) (by norm_num) (measure_mono_null ?_ (C.1 e.symm))
  rintro ω ⟨a, b, c⟩
  simp only [Set.mem_compl_iff, Set.mem_ofPred_eq, not_lt, hs, seen_firstN]
  have : firstN (fun i => Z i ω) 3 = [0, 0, 3] := by simp [firstN, List.range_succ, Z, a, b, c]
  rw [this]
  have h6 : Spec.central 3 [0, 0, 3] = 6 := by simp [Spec.central, Spec.mean]; norm_num
  rw [h6]; linarith

end Verif.Props
