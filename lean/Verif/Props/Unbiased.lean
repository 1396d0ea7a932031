import Verif.Props.Consistency
import Verif.Props.Interim
import Verif.Props.Impulse
import Verif.Props.Window
import Verif.Proofs.Uncorrelated
/-
C127, C128, C129: expectation and variance of the statistics of uncorrelated random data.
-/
namespace Verif.Props
open Filter Topology MeasureTheory ProbabilityTheory Verif.Stochastic Exact
open scoped ENNReal

variable {ε : ℝ} {w N W : ℕ} {Ω : Type} {mΩ : MeasurableSpace Ω} {P : Measure Ω} [IsProbabilityMeasure P]

/-- The calls that are made in the case `ω`. -/
def observed {β : Type} (ops : List (Op (Ω → β))) (ω : Ω) : List (Op β) := ops.map (Op.map fun Y => Y ω)

omit mΩ in
theorem sinceClear_observed {β : Type} (ops : List (Op (Ω → β))) (ω : Ω) : sinceClear (observed ops ω) = seen (sinceClear ops) ω :=
  sinceClear_map _ _

/-- The result `f` is a finite number with expectation `m`. -/
def HasMean (f : Ω → Option (E ε)) (P : Measure Ω) (m : ℝ) : Prop :=
  ∃ Y : Ω → ℝ, Integrable Y P ∧ (∀ ω, f ω = some (X.fin (Y ω))) ∧ ∫ ω, Y ω ∂P = m

/-- The result `f` is a finite number with expectation `m` and variance `v`. -/
def HasMeanVar (f : Ω → Option (E ε)) (P : Measure Ω) (m v : ℝ) : Prop :=
  ∃ Y : Ω → ℝ, MemLp Y 2 P ∧ (∀ ω, f ω = some (X.fin (Y ω))) ∧ ∫ ω, Y ω ∂P = m ∧ Var[Y; P] = v

omit [IsProbabilityMeasure P] in
/-- Independent repetitions are uncorrelated. -/
theorem IID.uncorrelated {Z : ℕ → Ω → ℝ} (hZ : IID Z P) (h2 : MemLp (Z 0) 2 P) (n : ℕ) :
    Uncorrelated (firstN Z n) P Var[Z 0; P] ∧ ∀ Y ∈ firstN Z n, ∫ ω, Y ω ∂P = ∫ ω, Z 0 ω ∂P := by
  have hm : ∀ i, MemLp (Z i) 2 P := fun i => (hZ.ident i).memLp_iff.2 h2
  refine ⟨⟨?_, ?_, ?_⟩, ?_⟩
  · intro Y hY
    obtain ⟨i, -, rfl⟩ := List.mem_map.1 hY
    exact hm i
  · intro Y hY
    obtain ⟨i, -, rfl⟩ := List.mem_map.1 hY
    exact (hZ.ident i).variance_eq
  · rw [firstN, List.pairwise_map]
    refine List.pairwise_lt_range.imp fun {i j} hij => ?_
    exact (hZ.indep hij.ne).covariance_eq_zero (hm i) (hm j)
  · intro Y hY
    obtain ⟨i, -, rfl⟩ := List.mem_map.1 hY
    exact (hZ.ident i).integral_eq

omit [IsProbabilityMeasure P] in
theorem IID.uncorrelatedPairs {Z : ℕ → Ω → ℝ × ℝ} (hZ : IID Z P) (hx : MemLp (fun ω => (Z 0 ω).1) 2 P)
    (hy : MemLp (fun ω => (Z 0 ω).2) 2 P) (n : ℕ) :
    UncorrelatedPairs (firstN Z n) P (∫ ω, (Z 0 ω).1 ∂P) (∫ ω, (Z 0 ω).2 ∂P) cov[fun ω => (Z 0 ω).1, fun ω => (Z 0 ω).2; P] := by
  have h1 : ∀ i, MemLp (fun ω => (Z i ω).1) 2 P := fun i => ((hZ.ident i).comp measurable_fst).memLp_iff.2 hx
  have h2 : ∀ i, MemLp (fun ω => (Z i ω).2) 2 P := fun i => ((hZ.ident i).comp measurable_snd).memLp_iff.2 hy
  have e1 : ∀ i, ∫ ω, (Z i ω).1 ∂P = ∫ ω, (Z 0 ω).1 ∂P := fun i => ((hZ.ident i).comp measurable_fst).integral_eq
  have e2 : ∀ i, ∫ ω, (Z i ω).2 ∂P = ∫ ω, (Z 0 ω).2 ∂P := fun i => ((hZ.ident i).comp measurable_snd).integral_eq
  refine ⟨?_, ?_, ?_, ?_⟩
  · intro Y hY
    obtain ⟨i, -, rfl⟩ := List.mem_map.1 hY
    exact ⟨h1 i, h2 i⟩
  · intro Y hY
    obtain ⟨i, -, rfl⟩ := List.mem_map.1 hY
    exact ⟨e1 i, e2 i⟩
  · intro Y hY
    obtain ⟨i, -, rfl⟩ := List.mem_map.1 hY
    rw [covariance, covariance, e1, e2]
    exact ((hZ.ident i).comp (u := fun z : ℝ × ℝ => (z.1 - ∫ ω, (Z 0 ω).1 ∂P) * (z.2 - ∫ ω, (Z 0 ω).2 ∂P)) (by fun_prop)).integral_eq
  · rw [firstN, List.pairwise_map]
    refine List.pairwise_lt_range.imp fun {i j} hij => ⟨?_, ?_⟩
    · exact ((hZ.indep hij.ne).comp measurable_fst measurable_snd).covariance_eq_zero (h1 i) (h2 j)
    · exact ((hZ.indep hij.ne').comp measurable_fst measurable_snd).covariance_eq_zero (h1 j) (h2 i)

/-! ### C127 -/

section C127
variable {ops : List (Op (Ω → ℝ))} {m s : ℝ}

open Cumulative in
/-- C127: expectation and variance of `mean()`; no weighted average with other weights has a smaller variance. -/
theorem C127_mean (h : Uncorrelated (sinceClear ops) P s) (hm : ∀ Y ∈ sinceClear ops, ∫ ω, Y ω ∂P = m)
    (hne : sinceClear ops ≠ []) (hw : (sinceClear ops).length < 2 ^ w) :
    HasMeanVar (fun ω => some (Mean.run (finOps (observed ops ω)) : Mean w (E ε)).getMean) P m (s / (sinceClear ops).length)
    ∧ ∀ cs : List ℝ, cs.length = (sinceClear ops).length → cs.sum = 1 →
        s / (sinceClear ops).length ≤ Var[fun ω => lin cs (seen (sinceClear ops) ω); P] := by
  obtain ⟨h1, h2, h3⟩ := mean_stats h hm hne
  refine ⟨⟨_, h1, fun ω => ?_, h2, h3⟩, fun cs hl hc => ?_⟩
  · beta_reduce
    rw [(C01_mean (observed ops ω) (by rw [sinceClear_observed, seen_length]; exact hw)).1, sinceClear_observed]
  · obtain ⟨Y, hY⟩ := List.exists_mem_of_ne_nil _ hne
    have hs : 0 ≤ s := by rw [← h.var Y hY]; exact ProbabilityTheory.variance_nonneg ..
    rw [(lin_stats cs h hl.le).2.2.1, ← hl, div_eq_mul_one_div]
    exact mul_le_mul_of_nonneg_left (sq_weights cs hc) hs

open Cumulative in
/-- C127: `unbiased_variance()` has the expectation of the variance, `variance()` is smaller by the factor `(n-1)/n`. -/
theorem C127_variance (h : Uncorrelated (sinceClear ops) P s) (hm : ∀ Y ∈ sinceClear ops, ∫ ω, Y ω ∂P = m)
    (hw : (sinceClear ops).length < 2 ^ w) :
    let n := (sinceClear ops).length
    (2 ≤ n → HasMean (fun ω => some (Variance.run (finOps (observed ops ω)) : Variance w (E ε)).unbiasedVariance) P s)
    ∧ (1 ≤ n → HasMean (fun ω => some (Variance.run (finOps (observed ops ω)) : Variance w (E ε)).variance) P ((n - 1) / n * s)) := by
  intro n
  have hl : ∀ ω, (sinceClear (observed ops ω)).length = n := fun ω => by rw [sinceClear_observed, seen_length]
  constructor
  · intro hn
    have hne : sinceClear ops ≠ [] := List.length_pos_iff.1 (by omega)
    have hn1 : (n : ℝ) - 1 ≠ 0 := by
      have : (2 : ℝ) ≤ n := by exact_mod_cast hn
      linarith
    obtain ⟨h1, h2⟩ := central_stats h hm hne
    refine ⟨_, h1.div_const (n - 1 : ℝ), fun ω => ?_, ?_⟩
    · beta_reduce
      rw [((C02_variance (observed ops ω) (by rw [hl]; exact hw)).2 (by rw [hl]; exact hn)).1, sinceClear_observed, Spec.sampleVariance, seen_length]
    · rw [integral_div, h2]
      exact mul_div_cancel_left₀ _ hn1
  · intro hn
    have hne : sinceClear ops ≠ [] := List.length_pos_iff.1 (by omega)
    obtain ⟨h1, h2⟩ := central_stats h hm hne
    refine ⟨_, h1.div_const (n : ℝ), fun ω => ?_, ?_⟩
    · beta_reduce
      rw [((C02_variance (observed ops ω) (by rw [hl]; exact hw)).1 (by rw [hl]; exact hn)).1, sinceClear_observed, Spec.variance, seen_length]
    · rw [integral_div, h2]; ring

open Cumulative in
/-- C127: `unbiased_variance()` of pairs has the expectation of the covariance. -/
theorem C127_covariance {ops : List (Op (Ω → ℝ × ℝ))} {a b c : ℝ} (h : UncorrelatedPairs (sinceClear ops) P a b c)
    (hw : (sinceClear ops).length < 2 ^ w) :
    let n := (sinceClear ops).length
    (2 ≤ n → HasMean (fun ω => some (Comoment.run (finOps2 (observed ops ω)) : Comoment w (E ε)).unbiasedVariance) P c)
    ∧ (1 ≤ n → HasMean (fun ω => some (Comoment.run (finOps2 (observed ops ω)) : Comoment w (E ε)).variance) P ((n - 1) / n * c)) := by
  intro n
  have hl : ∀ ω, (sinceClear (observed ops ω)).length = n := fun ω => by rw [sinceClear_observed, seen_length]
  constructor
  · intro hn
    have hne : sinceClear ops ≠ [] := List.length_pos_iff.1 (by omega)
    have hn1 : (n : ℝ) - 1 ≠ 0 := by
      have : (2 : ℝ) ≤ n := by exact_mod_cast hn
      linarith
    obtain ⟨h1, h2⟩ := cosum_stats h hne
    refine ⟨_, h1.div_const (n - 1 : ℝ), fun ω => ?_, ?_⟩
    · beta_reduce
      rw [(C09_covariance (observed ops ω) (by rw [hl]; exact hw)).2.2.2.2.1 (by rw [hl]; exact hn), sinceClear_observed, seen_length]
    · rw [integral_div, h2]
      exact mul_div_cancel_left₀ _ hn1
  · intro hn
    have hne : sinceClear ops ≠ [] := List.length_pos_iff.1 (by omega)
    obtain ⟨h1, h2⟩ := cosum_stats h hne
    refine ⟨_, h1.div_const (n : ℝ), fun ω => ?_, ?_⟩
    · beta_reduce
      rw [(C09_covariance (observed ops ω) (by rw [hl]; exact hw)).2.2.1 (by rw [hl]; exact hn), sinceClear_observed, Spec.covariance, seen_length]
    · rw [integral_div, h2]; ring

omit mΩ in
theorem lastN_seen {β : Type} (n : ℕ) (xs : List (Ω → β)) (ω : Ω) : Spec.lastN n (seen xs ω) = seen (Spec.lastN n xs) ω := by
  simp [Spec.lastN, seen, List.map_drop]

theorem lastN_sublist {β : Type} (n : ℕ) (xs : List β) : (Spec.lastN n xs).Sublist xs := List.drop_sublist ..

open Window in
/-- C127 for windows: `min(N, n)` values count. -/
theorem C127_window (hN : 1 ≤ N) (h : Uncorrelated (sinceClear ops) P s) (hm : ∀ Y ∈ sinceClear ops, ∫ ω, Y ω ∂P = m) :
    let k := min N (sinceClear ops).length
    (1 ≤ k → HasMeanVar (fun ω => (Mean.run (finOps (observed ops ω)) : Option (Mean N (E ε))).map (·.getMean)) P m (s / k))
    ∧ (2 ≤ k → HasMean (fun ω => (Variance.run (finOps (observed ops ω)) : Option (Variance N (E ε))).map (·.unbiasedVariance)) P s)
    ∧ (1 ≤ k → HasMean (fun ω => (Variance.run (finOps (observed ops ω)) : Option (Variance N (E ε))).map (·.variance)) P
        ((k - 1) / k * s)) := by
  intro k
  have hs := lastN_sublist N (sinceClear ops)
  have h' := h.sublist hs
  have hm' : ∀ Y ∈ Spec.lastN N (sinceClear ops), ∫ ω, Y ω ∂P = m := fun Y hY => hm Y (hs.subset hY)
  have hk : (Spec.lastN N (sinceClear ops)).length = k := Spec.length_lastN ..
  have hne : 1 ≤ k → Spec.lastN N (sinceClear ops) ≠ [] := fun h => List.length_pos_iff.1 (by omega)
  refine ⟨fun h1 => ?_, fun h2 => ?_, fun h1 => ?_⟩
  · obtain ⟨a1, a2, a3⟩ := mean_stats h' hm' (hne h1)
    rw [hk] at a3
    refine ⟨_, a1, fun ω => ?_, a2, a3⟩
    beta_reduce
    obtain ⟨t, ht, hv⟩ := C18_window_mean (ε := ε) hN (observed ops ω)
    rw [ht, Option.map_some, hv, sinceClear_observed, lastN_seen]
  · have hn1 : (k : ℝ) - 1 ≠ 0 := by
      have : (2 : ℝ) ≤ k := by exact_mod_cast h2
      linarith
    obtain ⟨a1, a2⟩ := central_stats h' hm' (hne (by omega))
    rw [hk] at a2
    refine ⟨_, a1.div_const (k - 1 : ℝ), fun ω => ?_, ?_⟩
    · beta_reduce
      obtain ⟨t, ht, -, -, hv, -⟩ := C19_window_variance (ε := ε) hN (observed ops ω)
      simp only [sinceClear_observed, lastN_seen, seen_length, hk] at hv
      rw [ht, Option.map_some, hv h2, Spec.sampleVariance, seen_length, hk]
    · rw [integral_div, a2]
      exact mul_div_cancel_left₀ _ hn1
  · obtain ⟨a1, a2⟩ := central_stats h' hm' (hne h1)
    rw [hk] at a2
    refine ⟨_, a1.div_const (k : ℝ), fun ω => ?_, ?_⟩
    · beta_reduce
      obtain ⟨t, ht, hv, -⟩ := C19_window_variance (ε := ε) hN (observed ops ω)
      simp only [sinceClear_observed, lastN_seen, seen_length, hk] at hv
      rw [ht, Option.map_some, hv h1, Spec.variance, seen_length, hk]
    · rw [integral_div, a2]; ring

open Window in
/-- C127 for the covariance of a window. -/
theorem C127_window_covariance (hN : 1 ≤ N) {ops : List (Op (Ω → ℝ × ℝ))} {a b c : ℝ} (h : UncorrelatedPairs (sinceClear ops) P a b c) :
    let k := min N (sinceClear ops).length
    (2 ≤ k → HasMean (fun ω => (Comoment.run (finOps2 (observed ops ω)) : Option (Comoment N (E ε))).map (·.unbiasedVariance)) P c)
    ∧ (1 ≤ k → HasMean (fun ω => (Comoment.run (finOps2 (observed ops ω)) : Option (Comoment N (E ε))).map (·.variance)) P
        ((k - 1) / k * c)) := by
  intro k
  have h' := h.sublist (lastN_sublist N (sinceClear ops))
  have hk : (Spec.lastN N (sinceClear ops)).length = k := Spec.length_lastN ..
  have hne : 1 ≤ k → Spec.lastN N (sinceClear ops) ≠ [] := fun h => List.length_pos_iff.1 (by omega)
  refine ⟨fun h2 => ?_, fun h1 => ?_⟩
  · have hn1 : (k : ℝ) - 1 ≠ 0 := by
      have : (2 : ℝ) ≤ k := by exact_mod_cast h2
      linarith
    obtain ⟨a1, a2⟩ := cosum_stats h' (hne (by omega))
    rw [hk] at a2
    refine ⟨_, a1.div_const (k - 1 : ℝ), fun ω => ?_, ?_⟩
    · beta_reduce
      obtain ⟨t, ht, -, -, -, hv, -⟩ := C20_window_covariance (ε := ε) hN (observed ops ω)
      simp only [sinceClear_observed, lastN_seen, seen_length, hk] at hv
      rw [ht, Option.map_some, hv h2]
    · rw [integral_div, a2]
      exact mul_div_cancel_left₀ _ hn1
  · obtain ⟨a1, a2⟩ := cosum_stats h' (hne h1)
    rw [hk] at a2
    refine ⟨_, a1.div_const (k : ℝ), fun ω => ?_, ?_⟩
    · beta_reduce
      obtain ⟨t, ht, -, hv, -⟩ := C20_window_covariance (ε := ε) hN (observed ops ω)
      simp only [sinceClear_observed, lastN_seen, seen_length, hk] at hv
      rw [ht, Option.map_some, hv h1, Spec.covariance, seen_length, hk]
    · rw [integral_div, a2]; ring

end C127

/-! ### C128 -/

open Cumulative in
/-- C128: `unbiased_mean()` is unbiased. -/
def C128_Statement (w : ℕ) (ε : ℝ) : Prop :=
  ∀ (Ω : Type) (_ : MeasurableSpace Ω) (P : Measure Ω) (_ : IsProbabilityMeasure P) (ops : List (Op (Ω → ℝ))) (m s : ℝ),
    Uncorrelated (sinceClear ops) P s → (∀ Y ∈ sinceClear ops, ∫ ω, Y ω ∂P = m) → 2 ≤ (sinceClear ops).length →
    (sinceClear ops).length < 2 ^ w →
    HasMean (fun ω => some (Mean.run (finOps (observed ops ω)) : Mean w (E ε)).unbiasedMean) P m

open Cumulative in
/-- C128: the expectation of `unbiased_mean()` is `n / (n - 1)` times the expectation of the data. -/
theorem C128_expectation {ops : List (Op (Ω → ℝ))} {m s : ℝ} (h : Uncorrelated (sinceClear ops) P s)
    (hm : ∀ Y ∈ sinceClear ops, ∫ ω, Y ω ∂P = m) (hn : 2 ≤ (sinceClear ops).length) (hw : (sinceClear ops).length < 2 ^ w) :
    let n := (sinceClear ops).length
    HasMean (fun ω => some (Mean.run (finOps (observed ops ω)) : Mean w (E ε)).unbiasedMean) P (n / (n - 1) * m) := by
  intro n
  have hl : ∀ ω, (sinceClear (observed ops ω)).length = n := fun ω => by rw [sinceClear_observed, seen_length]
  have hne : sinceClear ops ≠ [] := List.length_pos_iff.1 (by omega)
  obtain ⟨h1, h2, -⟩ := mean_stats h hm hne
  refine ⟨_, (h1.integrable (by norm_num)).const_mul (n / (n - 1) : ℝ), fun ω => ?_, ?_⟩
  · beta_reduce
    rw [(C01_mean (observed ops ω) (by rw [hl]; exact hw)).2.2.2 (by rw [hl]; exact hn), sinceClear_observed, Spec.sum_eq_mean_mul, seen_length]
    congr 2; ring
  · rw [integral_const_mul, h2]

omit [IsProbabilityMeasure P] in
theorem HasMean.unique {f : Ω → Option (E ε)} {m m' : ℝ} (h : HasMean f P m) (h' : HasMean f P m') : m = m' := by
  obtain ⟨Y, -, h1, rfl⟩ := h
  obtain ⟨Y', -, h2, rfl⟩ := h'
  refine congrArg (fun Y : Ω → ℝ => ∫ ω, Y ω ∂P) (funext fun ω => ?_)
  have := (h1 ω).symm.trans (h2 ω)
  rwa [Option.some_inj, X.fin_inj] at this

/-- C128 holds only for data with expectation zero. -/
theorem C128_unbiased_mean_partial {ops : List (Op (Ω → ℝ))} {m s : ℝ} (h : Uncorrelated (sinceClear ops) P s)
    (hm : ∀ Y ∈ sinceClear ops, ∫ ω, Y ω ∂P = m) (hn : 2 ≤ (sinceClear ops).length) (hw : (sinceClear ops).length < 2 ^ w) :
    HasMean (fun ω => some (Cumulative.Mean.run (finOps (observed ops ω)) : Cumulative.Mean w (E ε)).unbiasedMean) P m ↔ m = 0 := by
  have he := C128_expectation (ε := ε) h hm hn hw
  have hn1 : (0 : ℝ) < (sinceClear ops).length - 1 := by
    have : (2 : ℝ) ≤ (sinceClear ops).length := by exact_mod_cast hn
    linarith
  constructor
  · intro h'
    have := h'.unique he
    rw [div_mul_eq_mul_div, eq_div_iff hn1.ne'] at this
    linarith
  · rintro rfl
    simpa using he

/-- C128 is violated: constant data are uncorrelated, and their `unbiased_mean()` is not their value. -/
theorem C128_unbiased_mean_violated (hw : 2 ≤ w) : ¬ C128_Statement w ε := by
  intro hst
  let P : Measure Unit := Measure.dirac ()
  let ops : List (Op (Unit → ℝ)) := [.push fun _ => 1, .push fun _ => 1]
  have hs : sinceClear ops = [fun _ => 1, fun _ => 1] := rfl
  have hl : (sinceClear ops).length < 2 ^ w := by
    have : (2 : Nat) ^ 2 ≤ 2 ^ w := Nat.pow_le_pow_right (by norm_num) hw
    rw [hs]; simp; omega
  have hU : Uncorrelated (sinceClear ops) P 0 := by
    rw [hs]
    refine ⟨?_, ?_, ?_⟩
    · intro Y hY
      have : Y = fun _ => 1 := by simpa using hY
      subst this
      exact memLp_const _
    · intro Y hY
      have : Y = fun _ => 1 := by simpa using hY
      subst this
      exact variance_dirac ()
    · simp [P]
  have hm : ∀ Y ∈ sinceClear ops, ∫ ω, Y ω ∂P = 1 := by
    intro Y hY
    rw [hs] at hY
    have : Y = fun _ => 1 := by simpa using hY
    subst this
    simp
  have h2 : 2 ≤ (sinceClear ops).length := by rw [hs]; simp
  have := (C128_unbiased_mean_partial (ε := ε) hU hm h2 hl).1 (hst _ _ P inferInstance ops 1 0 hU hm h2 hl)
  exact one_ne_zero this

/-! ### C129 -/

section C129
variable {ops : List (Op (Ω → ℝ))} {m s : ℝ}

theorem lin_range (g : ℕ → ℝ) (xs : List ℝ) :
    lin ((List.range xs.length).map g) xs = ((List.range xs.length).map fun i => g i * xs.getD i 0).sum := by
  rw [lin]
  congr 1
  apply List.ext_getElem
  · simp
  · intro i h1 h2
    simp at h1 h2
    simp [h2]

theorem ewMean_eq_lin (f : ℝ) (xs : List ℝ) :
    Spec.ewMean f xs = lin ((List.range xs.length).map fun i => f * (1 - f) ^ (xs.length - 1 - i) / (1 - (1 - f) ^ xs.length)) xs := by
  rw [lin_range, Spec.ewMean, Spec.ewSum, div_eq_mul_inv, ← List.sum_map_mul_right]
  congr 2
  funext i
  ring

theorem ew_weights {f : ℝ} (h0 : 0 < f) (h1 : f ≤ 1) {n : ℕ} (hn : 1 ≤ n) :
    ((List.range n).map fun i => f * (1 - f) ^ (n - 1 - i) / (1 - (1 - f) ^ n)).sum = 1
    ∧ (((List.range n).map fun i => f * (1 - f) ^ (n - 1 - i) / (1 - (1 - f) ^ n)).map (· ^ 2)).sum
      = f / (2 - f) * ((1 + (1 - f) ^ n) / (1 - (1 - f) ^ n)) := by
  have hp := (Spec.norm_pos h0 h1 (n := n) (by omega)).ne'
  constructor
  · have := (C25_weights h0 h1 n).2.2.2
    simp only [div_eq_mul_inv, List.sum_map_mul_right]
    rw [this, mul_inv_cancel₀ hp]
  · rw [List.map_map, sum_range_map]
    simp only [Function.comp]
    rw [Finset.sum_range_reflect (fun j => (f * (1 - f) ^ j / (1 - (1 - f) ^ n)) ^ 2) n]
    have e : ∀ j : ℕ, (f * (1 - f) ^ j / (1 - (1 - f) ^ n)) ^ 2 = f ^ 2 / (1 - (1 - f) ^ n) ^ 2 * ((1 - f) ^ 2) ^ j := by
      intro j; rw [div_pow, mul_pow, ← pow_mul, ← pow_mul, mul_comm 2 j]; ring
    simp only [e, ← Finset.mul_sum]
    have hq : (1 - f) ^ 2 ≠ 1 := by
      intro h
      have : f * (2 - f) = 0 := by linear_combination -h
      rcases mul_eq_zero.1 this with h | h <;> linarith
    rw [geom_sum_eq hq, ← pow_mul, mul_comm 2 n, pow_mul]
    have h2 : (2 - f) ≠ 0 := by linarith
    have hd : (1 - f) ^ 2 - 1 ≠ 0 := sub_ne_zero.2 hq
    field_simp
    ring

open Decay in
/-- C129: the decaying mean is unbiased, its variance is `f/(2-f) (1+(1-f)^n)/(1-(1-f)^n)` of that of the data. -/
theorem C129_decay {f : ℝ} (h0 : 0 < f) (h1 : f ≤ 1) (h : Uncorrelated (sinceClear ops) P s)
    (hm : ∀ Y ∈ sinceClear ops, ∫ ω, Y ω ∂P = m) (hne : sinceClear ops ≠ []) :
    HasMeanVar (fun ω => some (Mean.run (X.fin f) (finOps (observed ops ω)) : Mean (E ε)).mean) P m
      (f / (2 - f) * ((1 + (1 - f) ^ (sinceClear ops).length) / (1 - (1 - f) ^ (sinceClear ops).length)) * s) := by
  have hn : 1 ≤ (sinceClear ops).length := List.length_pos_iff.2 hne
  obtain ⟨w1, w2⟩ := ew_weights h0 h1 hn
  obtain ⟨a1, a2, a3, -⟩ := lin_stats ((List.range (sinceClear ops).length).map
    fun i => f * (1 - f) ^ ((sinceClear ops).length - 1 - i) / (1 - (1 - f) ^ (sinceClear ops).length)) h (by simp)
  rw [lin_mean _ hm (by simp), w1, mul_one] at a2
  rw [w2, mul_comm] at a3
  refine ⟨_, a1, fun ω => ?_, a2, a3⟩
  beta_reduce
  rw [C25_decay_mean h0 h1, sinceClear_observed, ewMean_eq_lin, seen_length]

theorem sum_getD_eq_lin (cs xs : List ℝ) : ((List.range cs.length).map fun i => cs.getD i 0 * xs.getD i 0).sum = lin cs xs := by
  induction cs generalizing xs with
  | nil => simp
  | cons c cs ih =>
    cases xs with
    | nil => simp
    | cons x xs =>
      rw [List.length_cons, List.range_succ_eq_map, List.map_cons, List.map_map, List.sum_cons, lin_cons, ← ih]
      simp [Function.comp_def]

theorem lin_take (cs xs : List ℝ) : lin cs xs = lin (cs.take xs.length) xs := by
  induction cs generalizing xs with
  | nil => simp
  | cons c cs ih =>
    cases xs with
    | nil => simp
    | cons x xs => rw [lin_cons, List.length_cons, List.take_succ_cons, lin_cons, ← ih]

/-- C129: the FIR filter multiplies the expectation by the sum of the coefficients and the variance by the sum of their squares. -/
theorem C129_fir {cs : List ℝ} (hc : cs ≠ []) {xs : List (Ω → ℝ)} (h : Uncorrelated xs P s) (hm : ∀ Y ∈ xs, ∫ ω, Y ω ∂P = m)
    (hne : xs ≠ []) :
    HasMeanVar (fun ω => (Impulse.Finite.run (cs.map X.fin) (finOps (observed (xs.map .push) ω)) : Option (Impulse.Finite (E ε))).map
        (·.value)) P (m * (cs.take xs.length).sum) (s * ((cs.take xs.length).map (· ^ 2)).sum) := by
  obtain ⟨a1, a2, a3, -⟩ := lin_stats (cs.take xs.length) h.reverse (by simp)
  rw [lin_mean _ (m := m) (by simpa using hm) (by simp)] at a2
  refine ⟨_, a1, fun ω => ?_, a2, a3⟩
  obtain ⟨t, ht, hv⟩ := fir_pushes (ε := ε) hc (l := seen xs ω) (by simpa [seen] using hne)
  have e : observed (xs.map .push) ω = (seen xs ω).map .push := by simp [observed, seen, Op.map]
  beta_reduce
  rw [e, ht, Option.map_some, hv, Spec.fir, sum_getD_eq_lin, lin_take]
  simp [seen]

theorem lin_append (cs ds xs ys : List ℝ) (h : cs.length = xs.length) : lin (cs ++ ds) (xs ++ ys) = lin cs xs + lin ds ys := by
  rw [lin, List.zipWith_append h, List.sum_append]; rfl

theorem lin_scale (a c : ℝ) (n : ℕ) (xs : List ℝ) : lin (List.replicate n (a * c)) xs = a * lin (List.replicate n c) xs := by
  induction n generalizing xs with
  | zero => simp
  | succ n ih =>
    cases xs with
    | nil => simp
    | cons x xs => rw [List.replicate_succ, List.replicate_succ, lin_cons, lin_cons, ih]; ring

open Interim in
/-- C129: the interim mean; `k` is the number of values in the current block. -/
theorem C129_interim (hW : 1 ≤ W) (hw : 2 * W < 2 ^ w) (h : Uncorrelated (sinceClear ops) P s)
    (hm : ∀ Y ∈ sinceClear ops, ∫ ω, Y ω ∂P = m) (hne : sinceClear ops ≠ []) :
    let k : ℝ := (Spec.curBlock W (sinceClear ops)).length
    HasMeanVar (fun ω => some (IMean.mean (Interim.run (finOps (observed ops ω)) : IMean w W (E ε)))) P m
      (if (sinceClear ops).length ≤ W then s / (sinceClear ops).length
       else s * (((W - k) ^ 2 / W + 4 * k) / (W + k) ^ 2)) := by
  intro k
  have hobs : ∀ ω, IMean.mean (Interim.run (finOps (observed ops ω)) : IMean w W (E ε))
      = X.fin (Spec_interimMean W (seen (sinceClear ops) ω)) := fun ω => by
    rw [(C29_interim_mean hW hw (observed ops ω)).1, sinceClear_observed]
  by_cases hle : (sinceClear ops).length ≤ W
  · rw [if_pos hle]
    obtain ⟨a1, a2, a3⟩ := mean_stats h hm hne
    refine ⟨_, a1, fun ω => ?_, a2, a3⟩
    beta_reduce
    rw [hobs, Spec_interimMean, seen_length, if_pos hle]
  · rw [if_neg hle]
    set pb := Spec.prevBlock W (sinceClear ops) with hpb
    set cb := Spec.curBlock W (sinceClear ops) with hcb
    have hpl : pb.length = W := by rw [hpb, Spec.length_prevBlock hW, if_neg hle]
    have hcl : cb ≠ [] := fun e => hne ((Spec.curBlock_eq_nil hW _).1 e)
    have hk : 0 < k := by
      have := List.length_pos_iff.2 hcl
      simp only [k]; exact_mod_cast this
    have hWp : (0 : ℝ) < W := by exact_mod_cast hW
    have hsub : (pb ++ cb).Sublist (sinceClear ops) := by
      rw [hpb, hcb, Spec.blocks_suffix hW]; exact lastN_sublist ..
    obtain ⟨a1, a2, a3, -⟩ := lin_stats (List.replicate pb.length ((W - k) / (W + k) * (1 / pb.length : ℝ))
      ++ List.replicate cb.length (2 * k / (W + k) * (1 / cb.length : ℝ))) (h.sublist hsub) (by simp)
    rw [lin_mean _ (m := m) (fun Y hY => hm Y (hsub.subset hY)) (by simp)] at a2
    refine ⟨_, a1, fun ω => ?_, a2.trans ?_, a3.trans ?_⟩
    · beta_reduce
      have e1 : Spec.prevBlock W (seen (sinceClear ops) ω) = seen pb ω := Spec.prevBlock_map ..
      have e2 : Spec.curBlock W (seen (sinceClear ops) ω) = seen cb ω := Spec.curBlock_map ..
      rw [hobs, Spec_interimMean, seen_length, if_neg hle, e1, e2, Spec.blend,
        show seen (pb ++ cb) ω = seen pb ω ++ seen cb ω from List.map_append .., lin_append _ _ _ _ (by simp), lin_scale, lin_scale,
        seen_length, ← seen_length pb ω, ← seen_length cb ω, ← mean_eq_lin, ← mean_eq_lin, seen_length]
      congr 2
      change ((W - k) * _ + 2 * k * _) / (W - k + 2 * k) = _
      rw [show W - k + 2 * k = W + k by ring]
      ring
    · rw [List.sum_append, List.sum_replicate, List.sum_replicate, nsmul_eq_mul, nsmul_eq_mul, hpl]
      change m * (W * ((W - k) / (W + k) * (1 / W)) + k * (2 * k / (W + k) * (1 / k))) = m
      field_simp
      ring
    · rw [List.map_append, List.sum_append, List.map_replicate, List.map_replicate, List.sum_replicate, List.sum_replicate,
        nsmul_eq_mul, nsmul_eq_mul, hpl]
      change s * (W * ((W - k) / (W + k) * (1 / W)) ^ 2 + k * (2 * k / (W + k) * (1 / k)) ^ 2) = _
      field_simp
      ring

end C129

/-! ### Examples -/

/-- Independent throws of a coin with the sides 1 (probability 1/4) and 5: expectation 4, variance 3. -/
theorem coin_throws (n : ℕ) : ∃ (P : Measure (ℕ → ℝ)) (_ : IsProbabilityMeasure P),
    Uncorrelated (firstN (fun i (ω : ℕ → ℝ) => ω i) n) P 3 ∧ ∀ Y ∈ firstN (fun i (ω : ℕ → ℝ) => ω i) n, ∫ ω, Y ω ∂P = 4 := by
  have h0 : (0 : ℝ) ≤ 1 / 4 := by norm_num
  have h1 : (1 / 4 : ℝ) ≤ 1 := by norm_num
  have hp := coin_prob (a := (1 : ℝ)) (b := 5) h0 h1
  have hm := coin_moments (a := 1) (b := 5) h0 h1 2
  have h2 := eval_memLp (coin (1 / 4) (1 : ℝ) 5) (coin_memLp h0 h1 measurable_id' 2)
  have hu := (iid_eval (coin (1 / 4) (1 : ℝ) 5)).uncorrelated h2 n
  refine ⟨Measure.infinitePi fun _ : ℕ => coin (1 / 4) (1 : ℝ) 5, inferInstance, ?_, ?_⟩
  · convert hu.1 using 1
    rw [variance_eq_integral h2.1.aemeasurable]
    refine Eq.trans ?_ hm.2.symm
    norm_num
  · intro Y hY
    rw [hu.2 Y hY, hm.1]; norm_num

/-- The mean of 6 throws has expectation 4 and variance 1/2; `unbiased_variance()` has expectation 3, `variance()` has 5/2;
`unbiased_mean()` has 24/5. -/
example : ∃ (P : Measure (ℕ → ℝ)) (_ : IsProbabilityMeasure P) (ops : List (Op ((ℕ → ℝ) → ℝ))),
    (sinceClear ops).length = 6
    ∧ HasMeanVar (fun ω => some (Cumulative.Mean.run (finOps (observed ops ω)) : Cumulative.Mean 64 (E ε)).getMean) P 4 (1 / 2)
    ∧ HasMean (fun ω => some (Cumulative.Variance.run (finOps (observed ops ω)) : Cumulative.Variance 64 (E ε)).unbiasedVariance) P 3
    ∧ HasMean (fun ω => some (Cumulative.Variance.run (finOps (observed ops ω)) : Cumulative.Variance 64 (E ε)).variance) P (5 / 2)
    ∧ HasMean (fun ω => some (Cumulative.Mean.run (finOps (observed ops ω)) : Cumulative.Mean 64 (E ε)).unbiasedMean) P (24 / 5) := by
  obtain ⟨P, hP, hu, hm⟩ := coin_throws 6
  have hs : sinceClear ((firstN (fun i (ω : ℕ → ℝ) => ω i) 6).map Op.push) = firstN (fun i (ω : ℕ → ℝ) => ω i) 6 := sinceClear_pushes _
  have hl : (sinceClear ((firstN (fun i (ω : ℕ → ℝ) => ω i) 6).map Op.push)).length = 6 := by rw [hs, firstN_length]
  rw [← hs] at hu hm
  have hw : (sinceClear ((firstN (fun i (ω : ℕ → ℝ) => ω i) 6).map Op.push)).length < 2 ^ 64 := by rw [hl]; norm_num
  have a := (C127_mean (ε := ε) hu hm (List.length_pos_iff.1 (by omega)) hw).1
  have b := C127_variance (ε := ε) hu hm hw
  have c := C128_expectation (ε := ε) hu hm (by omega) hw
  simp only [hl] at a b c
  refine ⟨P, hP, _, hl, ?_, b.1 (by norm_num), ?_, ?_⟩
  · convert a using 1; norm_num
  · convert b.2 (by norm_num) using 1; norm_num
  · convert c using 1; norm_num

/-- A window of 3 and 6 throws. -/
example : ∃ (P : Measure (ℕ → ℝ)) (_ : IsProbabilityMeasure P) (ops : List (Op ((ℕ → ℝ) → ℝ))),
    (sinceClear ops).length = 6
    ∧ HasMeanVar (fun ω => (Window.Mean.run (finOps (observed ops ω)) : Option (Window.Mean 3 (E ε))).map (·.getMean)) P 4 1
    ∧ HasMean (fun ω => (Window.Variance.run (finOps (observed ops ω)) : Option (Window.Variance 3 (E ε))).map (·.unbiasedVariance)) P 3 := by
  obtain ⟨P, hP, hu, hm⟩ := coin_throws 6
  have hs : sinceClear ((firstN (fun i (ω : ℕ → ℝ) => ω i) 6).map Op.push) = firstN (fun i (ω : ℕ → ℝ) => ω i) 6 := sinceClear_pushes _
  have hl : (sinceClear ((firstN (fun i (ω : ℕ → ℝ) => ω i) 6).map Op.push)).length = 6 := by rw [hs, firstN_length]
  rw [← hs] at hu hm
  have a := C127_window (N := 3) (ε := ε) (by norm_num) hu hm
  simp only [hl] at a
  refine ⟨P, hP, _, hl, ?_, a.2.1 (by norm_num)⟩
  convert a.1 (by norm_num) using 1; norm_num

/-- The decaying mean with factor 1/2 after 2 throws (weights 1/3 and 2/3), the FIR filter with the coefficients 1 and 2 after 6 throws,
the interim mean with a window of 4 after 5 throws. -/
example : ∃ (P : Measure (ℕ → ℝ)) (_ : IsProbabilityMeasure P) (xs : List ((ℕ → ℝ) → ℝ)), xs.length = 5
    ∧ HasMeanVar (fun ω => some (Decay.Mean.run (X.fin (1 / 2)) (finOps (observed ((xs.take 2).map .push) ω)) : Decay.Mean (E ε)).mean) P 4
        (5 / 9 * 3)
    ∧ HasMeanVar (fun ω => (Impulse.Finite.run (([1, 2] : List ℝ).map X.fin) (finOps (observed (xs.map .push) ω))
        : Option (Impulse.Finite (E ε))).map (·.value)) P 12 15
    ∧ HasMeanVar (fun ω => some (Interim.IMean.mean (Interim.Interim.run (finOps (observed (xs.map .push) ω)) : Interim.IMean 64 4 (E ε)))) P 4
        (3 / 4) := by
  obtain ⟨P, hP, hu, hm⟩ := coin_throws 5
  have hl : (firstN (fun i (ω : ℕ → ℝ) => ω i) 5).length = 5 := firstN_length ..
  have hne : firstN (fun i (ω : ℕ → ℝ) => ω i) 5 ≠ [] := List.length_pos_iff.1 (by omega)
  refine ⟨P, hP, firstN (fun i (ω : ℕ → ℝ) => ω i) 5, hl, ?_, ?_, ?_⟩
  · have ht := List.take_sublist 2 (firstN (fun i (ω : ℕ → ℝ) => ω i) 5)
    have hs := sinceClear_pushes ((firstN (fun i (ω : ℕ → ℝ) => ω i) 5).take 2)
    have h2 : ((firstN (fun i (ω : ℕ → ℝ) => ω i) 5).take 2).length = 2 := by rw [List.length_take, hl]; rfl
    have := C129_decay (ε := ε) (ops := ((firstN (fun i (ω : ℕ → ℝ) => ω i) 5).take 2).map .push) (f := 1 / 2) (m := 4)
      (by norm_num) (by norm_num) (by rw [hs]; exact hu.sublist ht) (by rw [hs]; exact fun Y hY => hm Y (ht.subset hY))
      (by rw [hs]; exact List.length_pos_iff.1 (by omega))
    rw [hs, h2] at this
    convert this using 1; norm_num
  · have := C129_fir (ε := ε) (cs := [1, 2]) (by simp) hu hm hne
    rw [hl] at this
    convert this using 1 <;> norm_num
  · have hs := sinceClear_pushes (firstN (fun i (ω : ℕ → ℝ) => ω i) 5)
    rw [← hs] at hu hm hne
    have := C129_interim (ε := ε) (W := 4) (w := 64) (by norm_num) (by norm_num) hu hm hne
    have hc : (Spec.curBlock 4 (firstN (fun i (ω : ℕ → ℝ) => ω i) 5)).length = 1 := by
      rw [Spec.curBlock, List.length_drop, hl]
    simp only [hs, hl, hc] at this
    rw [if_neg (by norm_num)] at this
    convert this using 1; norm_num

/-- The points `(0, 1)` and `(2, 5)`, each with probability 1/2, have the covariance 2; 3 observations, and the last 2 of them. -/
example : ∃ (P : Measure (ℕ → ℝ × ℝ)) (_ : IsProbabilityMeasure P) (ops : List (Op ((ℕ → ℝ × ℝ) → ℝ × ℝ))),
    (sinceClear ops).length = 3
    ∧ HasMean (fun ω => some (Cumulative.Comoment.run (finOps2 (observed ops ω)) : Cumulative.Comoment 64 (E ε)).unbiasedVariance) P 2
    ∧ HasMean (fun ω => (Window.Comoment.run (finOps2 (observed ops ω)) : Option (Window.Comoment 2 (E ε))).map (·.variance)) P 1 := by
  have h0 : (0 : ℝ) ≤ 1 / 2 := by norm_num
  have h1 : (1 / 2 : ℝ) ≤ 1 := by norm_num
  set ν := coin (1 / 2) ((0 : ℝ), (1 : ℝ)) (2, 5) with hν
  have hp : IsProbabilityMeasure ν := coin_prob h0 h1
  have hx := eval_memLp ν (coin_memLp (q := 2) h0 h1 measurable_fst)
  have hy := eval_memLp ν (coin_memLp (q := 2) h0 h1 measurable_snd)
  have ex : (∫ ω : ℕ → ℝ × ℝ, (ω 0).1 ∂(Measure.infinitePi fun _ : ℕ => ν)) = 1 := by
    rw [eval_integral ν measurable_fst, coin_integral h0 h1]; norm_num
  have ey : (∫ ω : ℕ → ℝ × ℝ, (ω 0).2 ∂(Measure.infinitePi fun _ : ℕ => ν)) = 3 := by
    rw [eval_integral ν measurable_snd, coin_integral h0 h1]; norm_num
  have c : cov[fun ω : ℕ → ℝ × ℝ => (ω 0).1, fun ω => (ω 0).2; Measure.infinitePi fun _ : ℕ => ν] = 2 := by
    rw [covariance, ex, ey, eval_integral ν (g := fun z => (z.1 - 1) * (z.2 - 3)) (by fun_prop), coin_integral h0 h1]
    norm_num
  have hu := (iid_eval ν).uncorrelatedPairs hx hy 3
  have hs := sinceClear_pushes (firstN (fun i (ω : ℕ → ℝ × ℝ) => ω i) 3)
  have hl : (sinceClear ((firstN (fun i (ω : ℕ → ℝ × ℝ) => ω i) 3).map Op.push)).length = 3 := by rw [hs, firstN_length]
  rw [← hs] at hu
  have a := C127_covariance (ε := ε) (w := 64) hu (by rw [hl]; norm_num)
  have b := C127_window_covariance (ε := ε) (N := 2) (by norm_num) hu
  simp only [hl, c] at a b
  refine ⟨Measure.infinitePi fun _ : ℕ => ν, inferInstance, _, hl, a.1 (by norm_num), ?_⟩
  convert b.2 (by norm_num) using 1; norm_num

end Verif.Props
