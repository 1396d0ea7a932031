import Verif.Proofs.DecayVarianceError
import Verif.Proofs.SkewnessError
/-
The decay skewness and kurtosis with rounding: powers of the deviations, and the quotients.
-/
namespace Verif
open Scalar

variable {F : Fmt} {p : Nat} {emin : Int} {u η : ℝ}

namespace Decay

/-- One more factor: `t` is a computed power of the deviation `d`, `δ` the computed deviation. -/
theorem power_step (hF : F.Binary p emin) (hE : F.Err u η) {K B D δ d t T e M U : ℝ} (hK : IsRep p emin K) (hKf : F.fits K)
    (hδ : |δ - d| ≤ D + 4 * (u * B)) (hδ' : |δ| ≤ 7 / 2 * B) (ht : |t - T| ≤ e) (ht' : |t| ≤ M) {M' : ℝ} (hT : |T| ≤ M')
    (hη : η ≤ u * U) (hU : U ≤ M * (7 / 2 * B)) (hMK : M * (7 / 2 * B) ≤ K) :
    (X.fin t * X.fin δ : X F) = X.fin (F.rnd (t * δ))
      ∧ |F.rnd (t * δ) - T * d| ≤ e * (7 / 2 * B) + M' * (D + 4 * (u * B)) + u * (M * (7 / 2 * B)) + u * U
      ∧ |F.rnd (t * δ)| ≤ 5 / 4 * (M * (7 / 2 * B)) := by
  have h1 : |t * δ - T * d| ≤ e * (7 / 2 * B) + M' * (D + 4 * (u * B)) := by
    have e0 : t * δ - T * d = (t - T) * δ + T * (δ - d) := by ring
    rw [e0]
    refine (abs_add_le _ _).trans ?_
    rw [abs_mul, abs_mul]
    have i1 := mul_le_mul ht hδ' (abs_nonneg _) ((abs_nonneg _).trans ht)
    have i2 := mul_le_mul hT hδ (abs_nonneg _) ((abs_nonneg _).trans hT)
    linarith
  have h2 : |t * δ| ≤ M * (7 / 2 * B) := by
    rw [abs_mul]; exact mul_le_mul ht' hδ' (abs_nonneg _) ((abs_nonneg _).trans ht')
  rw [X.mul_fin]
  exact hE.round_step hF hK hKf h1 h2 hη hU hMK

/-- The state of the skewness filter: a decay mean of the computed cubes. -/
theorem Skewness.fold_cubes (hF : F.Binary p emin) (hE : F.Err u η) {f g h B K : ℝ} (hf0 : 0 < f) (hf1 : f ≤ 1) (hh0 : 0 < h) (hh1 : h ≤ 1)
    (hfr : IsRep p emin f) (hB0 : 0 ≤ B) (hK : IsRep p emin K) (hKf : F.fits K) (hBK : 8 * B ≤ K) (hBBK : 14 * (B * B) ≤ K)
    (hB3K : 49 * B ^ 3 ≤ K)
    (hBK' : B + (sumErr u η f B + B * sumErr u η f 1) / f ≤ K) (hc : sumErr u η f B ≤ B) (hD : meanErr u η f B ≤ B)
    (hη : η ≤ u * B) (hηB : η ≤ u * (B * B)) (hη3 : η ≤ u * B ^ 3) (xs : List ℝ) (hB : ∀ x ∈ xs, |x| ≤ B) :
    ∃ rs : List ℝ, rs.length = xs.length ∧ (∀ r ∈ rs, |r| ≤ 62 * B ^ 3)
      ∧ |Spec.ewSum h rs - Spec.ewSum h ((Spec.ewDevs f xs).map (· ^ 3))| ≤ 25 * (B ^ 2 * meanErr u η f B) + 192 * (u * B ^ 3)
      ∧ ((xs.map X.fin).foldl Skewness.push (Skewness.init (X.fin f) (X.fin g) (X.fin h)) : Skewness (X F))
        = { super := (xs.map X.fin).foldl Variance.push (Variance.init (X.fin f) (X.fin g)), skewnessFactor := X.fin h,
            normalization := ((rs.map X.fin).foldl Mean.push (Mean.init (X.fin h)) : Mean (X F)).normalization,
            sumSkewness := ((rs.map X.fin).foldl Mean.push (Mean.init (X.fin h)) : Mean (X F)).sumMean }
      ∧ ((rs.map X.fin).foldl Mean.push (Mean.init (X.fin h)) : Mean (X F)).meanFactor = X.fin h := by
  have hu := hE.u_nonneg
  have hD0 : 0 ≤ meanErr u η f B := by
    have hc1 := sumErr_nonneg hE (zero_le_one (α := ℝ)) hf0
    have hcB := sumErr_nonneg hE hB0 hf0
    have he := hE.eta_nonneg
    unfold meanErr; positivity
  induction xs using List.reverseRecOn with
  | nil =>
    refine ⟨[], rfl, by simp, ?_, rfl, rfl⟩
    rw [Spec.ewDevs_nil, List.map_nil, Spec.ewSum_nil, sub_zero, abs_zero]; positivity
  | append_singleton xs x ih =>
    obtain ⟨rs, h1, h2, h3, h4, h5⟩ := ih fun y hy => hB y (List.mem_append_left _ hy)
    obtain ⟨m, hm, he⟩ := Mean.fold_mean (f := f) hF hE hf0 hf1 hfr hB0 hK hKf hBK hBK' hc (xs ++ [x]) hB
    have hxB : |x| ≤ B := hB x (by simp)
    have hμ := abs_ewMean_le hf0 hf1 hB0 hB
    obtain ⟨a1, a2, a3, a4⟩ := hE.diff hF hK hKf (by linarith) hη hxB hμ he hD
    obtain ⟨c1, c2, c3⟩ := hE.prod hF hK hKf hBBK hB0 hD0 hηB a2 a3 a4 a2 a3
    set δ := F.rnd (x - m)
    set μ := Spec.ewMean f (xs ++ [x]) with hμd
    set D := meanErr u η f B
    have hdd : |(x - μ) * (x - μ)| ≤ 4 * (B * B) := by
      rw [abs_mul]; have := mul_le_mul a4 a4 (abs_nonneg _) (by positivity); linarith
    have hB3 : 0 ≤ B ^ 3 := by positivity
    obtain ⟨d1, d2, d3⟩ := power_step hF hE (U := B ^ 3) hK hKf a2 a3 c2 c3 hdd hη3 (by linarith) (by linarith)
    have d2' : |F.rnd (F.rnd (δ * δ) * δ) - (x - μ) ^ 3| ≤ 25 * (B ^ 2 * D) + 192 * (u * B ^ 3) := by
      have e : (x - μ) ^ 3 = (x - μ) * (x - μ) * (x - μ) := by ring
      have hu3 : 0 ≤ u * B ^ 3 := by positivity
      rw [e]
      linarith
    have d3' : |F.rnd (F.rnd (δ * δ) * δ)| ≤ 62 * B ^ 3 := by linarith
    refine ⟨rs ++ [F.rnd (F.rnd (δ * δ) * δ)], by simp [h1], ?_, ?_, ?_, ?_⟩
    · intro r hr
      rcases List.mem_append.1 hr with hr | hr
      · exact h2 r hr
      · rw [List.mem_singleton.1 hr]; exact d3'
    · rw [Spec.ewDevs_snoc, List.map_append, List.map_singleton, Spec.ewSum_snoc, Spec.ewSum_snoc, ← hμd]
      have e : (1 - h) * Spec.ewSum h rs + h * F.rnd (F.rnd (δ * δ) * δ) - ((1 - h) * Spec.ewSum h ((Spec.ewDevs f xs).map (· ^ 3)) + h * (x - μ) ^ 3)
          = (1 - h) * (Spec.ewSum h rs - Spec.ewSum h ((Spec.ewDevs f xs).map (· ^ 3))) + h * (F.rnd (F.rnd (δ * δ) * δ) - (x - μ) ^ 3) := by ring
      rw [e]
      refine (abs_add_le _ _).trans ?_
      rw [abs_mul, abs_mul, abs_of_pos hh0, abs_of_nonneg (by linarith : 0 ≤ 1 - h)]
      have k1 := mul_le_mul_of_nonneg_left h3 (by linarith : 0 ≤ 1 - h)
      have k2 := mul_le_mul_of_nonneg_left d2' hh0.le
      linarith
    · have hsup : ∀ l : List ℝ, ((l.map X.fin).foldl Variance.push (Variance.init (X.fin f) (X.fin g)) : Variance (X F)).super
          = (l.map X.fin).foldl Mean.push (Mean.init (X.fin f)) := by
        intro l
        induction l using List.reverseRecOn with
        | nil => rfl
        | append_singleton l y ih => rw [List.map_append, List.foldl_append, List.foldl_append, ← ih]; rfl
      have hm' := hsup (xs ++ [x])
      rw [List.map_append, List.map_singleton, List.foldl_append, List.foldl_append, h4] at *
      rw [List.map_append, List.map_singleton, List.foldl_append]
      set st := (xs.map X.fin).foldl Variance.push (Variance.init (X.fin f) (X.fin g) : Variance (X F))
      set sv := (rs.map X.fin).foldl Mean.push (Mean.init (X.fin h) : Mean (X F))
      simp only [List.foldl_cons, List.foldl_nil] at hm hm' ⊢
      unfold Skewness.push Variance.mean
      simp only [hm', hm, a1, c1, d1]
      simp only [Mean.push, h5]
    · rw [List.map_append, List.map_singleton, List.foldl_append]
      exact h5

/-- The state of the kurtosis filter: a decay mean of the computed fourth powers. -/
theorem Kurtosis.fold_quartics (hF : F.Binary p emin) (hE : F.Err u η) {f g h i B K : ℝ} (hf0 : 0 < f) (hf1 : f ≤ 1) (hi0 : 0 < i) (hi1 : i ≤ 1)
    (hfr : IsRep p emin f) (hB0 : 0 ≤ B) (hK : IsRep p emin K) (hKf : F.fits K) (hBK : 8 * B ≤ K) (hBBK : 14 * (B * B) ≤ K)
    (hB3K : 49 * B ^ 3 ≤ K) (hB4K : 217 * B ^ 4 ≤ K)
    (hBK' : B + (sumErr u η f B + B * sumErr u η f 1) / f ≤ K) (hc : sumErr u η f B ≤ B) (hD : meanErr u η f B ≤ B)
    (hη : η ≤ u * B) (hηB : η ≤ u * (B * B)) (hη3 : η ≤ u * B ^ 3) (hη4 : η ≤ u * B ^ 4) (xs : List ℝ) (hB : ∀ x ∈ xs, |x| ≤ B) :
    ∃ rs : List ℝ, rs.length = xs.length ∧ (∀ r ∈ rs, |r| ≤ 272 * B ^ 4)
      ∧ |Spec.ewSum i rs - Spec.ewSum i ((Spec.ewDevs f xs).map (· ^ 4))| ≤ 96 * (B ^ 3 * meanErr u η f B) + 922 * (u * B ^ 4)
      ∧ ((xs.map X.fin).foldl Kurtosis.push (Kurtosis.init (X.fin f) (X.fin g) (X.fin h) (X.fin i)) : Kurtosis (X F))
        = { super := (xs.map X.fin).foldl Skewness.push (Skewness.init (X.fin f) (X.fin g) (X.fin h)), kurtosisFactor := X.fin i,
            normalization := ((rs.map X.fin).foldl Mean.push (Mean.init (X.fin i)) : Mean (X F)).normalization,
            sumKurtosis := ((rs.map X.fin).foldl Mean.push (Mean.init (X.fin i)) : Mean (X F)).sumMean }
      ∧ ((rs.map X.fin).foldl Mean.push (Mean.init (X.fin i)) : Mean (X F)).meanFactor = X.fin i := by
  have hu := hE.u_nonneg
  have hD0 : 0 ≤ meanErr u η f B := by
    have hc1 := sumErr_nonneg hE (zero_le_one (α := ℝ)) hf0
    have hcB := sumErr_nonneg hE hB0 hf0
    have he := hE.eta_nonneg
    unfold meanErr; positivity
  induction xs using List.reverseRecOn with
  | nil =>
    refine ⟨[], rfl, by simp, ?_, rfl, rfl⟩
    rw [Spec.ewDevs_nil, List.map_nil, Spec.ewSum_nil, sub_zero, abs_zero]; positivity
  | append_singleton xs x ih =>
    obtain ⟨rs, h1, h2, h3, h4, h5⟩ := ih fun y hy => hB y (List.mem_append_left _ hy)
    obtain ⟨m, hm, he⟩ := Mean.fold_mean (f := f) hF hE hf0 hf1 hfr hB0 hK hKf hBK hBK' hc (xs ++ [x]) hB
    have hxB : |x| ≤ B := hB x (by simp)
    have hμ := abs_ewMean_le hf0 hf1 hB0 hB
    obtain ⟨a1, a2, a3, a4⟩ := hE.diff hF hK hKf (by linarith) hη hxB hμ he hD
    obtain ⟨c1, c2, c3⟩ := hE.prod hF hK hKf hBBK hB0 hD0 hηB a2 a3 a4 a2 a3
    set δ := F.rnd (x - m)
    set μ := Spec.ewMean f (xs ++ [x]) with hμd
    set D := meanErr u η f B
    have hdd : |(x - μ) * (x - μ)| ≤ 4 * (B * B) := by
      rw [abs_mul]; have := mul_le_mul a4 a4 (abs_nonneg _) (by positivity); linarith
    have hd3 : |(x - μ) * (x - μ) * (x - μ)| ≤ 8 * B ^ 3 := by
      rw [abs_mul]; have := mul_le_mul hdd a4 (abs_nonneg _) (by positivity); linarith
    have hB3 : 0 ≤ B ^ 3 := by positivity
    have hB4 : 0 ≤ B ^ 4 := by positivity
    have hB3D : 0 ≤ B ^ 3 * D := by positivity
    have hu3 : 0 ≤ u * B ^ 3 := by positivity
    have hu4 : 0 ≤ u * B ^ 4 := by positivity
    obtain ⟨d1, d2, d3⟩ := power_step hF hE (U := B ^ 3) hK hKf a2 a3 c2 c3 hdd hη3 (by linarith) (by linarith)
    have d2' : |F.rnd (F.rnd (δ * δ) * δ) - (x - μ) * (x - μ) * (x - μ)| ≤ 25 * (B ^ 2 * D) + 192 * (u * B ^ 3) := by linarith
    have d3' : |F.rnd (F.rnd (δ * δ) * δ)| ≤ 62 * B ^ 3 := by linarith
    obtain ⟨b1, b2, b3⟩ := power_step hF hE (U := B ^ 4) hK hKf a2 a3 d2' d3' hd3 hη4 (by linarith) (by linarith)
    have b2' : |F.rnd (F.rnd (F.rnd (δ * δ) * δ) * δ) - (x - μ) ^ 4| ≤ 96 * (B ^ 3 * D) + 922 * (u * B ^ 4) := by
      have e : (x - μ) ^ 4 = (x - μ) * (x - μ) * (x - μ) * (x - μ) := by ring
      rw [e]
      linarith
    have b3' : |F.rnd (F.rnd (F.rnd (δ * δ) * δ) * δ)| ≤ 272 * B ^ 4 := by linarith
    refine ⟨rs ++ [F.rnd (F.rnd (F.rnd (δ * δ) * δ) * δ)], by simp [h1], ?_, ?_, ?_, ?_⟩
    · intro r hr
      rcases List.mem_append.1 hr with hr | hr
      · exact h2 r hr
      · rw [List.mem_singleton.1 hr]; exact b3'
    · rw [Spec.ewDevs_snoc, List.map_append, List.map_singleton, Spec.ewSum_snoc, Spec.ewSum_snoc, ← hμd]
      have e : (1 - i) * Spec.ewSum i rs + i * F.rnd (F.rnd (F.rnd (δ * δ) * δ) * δ) - ((1 - i) * Spec.ewSum i ((Spec.ewDevs f xs).map (· ^ 4)) + i * (x - μ) ^ 4)
          = (1 - i) * (Spec.ewSum i rs - Spec.ewSum i ((Spec.ewDevs f xs).map (· ^ 4))) + i * (F.rnd (F.rnd (F.rnd (δ * δ) * δ) * δ) - (x - μ) ^ 4) := by ring
      rw [e]
      refine (abs_add_le _ _).trans ?_
      rw [abs_mul, abs_mul, abs_of_pos hi0, abs_of_nonneg (by linarith : 0 ≤ 1 - i)]
      have k1 := mul_le_mul_of_nonneg_left h3 (by linarith : 0 ≤ 1 - i)
      have k2 := mul_le_mul_of_nonneg_left b2' hi0.le
      linarith
    · have hsup : ∀ l : List ℝ, ((l.map X.fin).foldl Skewness.push (Skewness.init (X.fin f) (X.fin g) (X.fin h)) : Skewness (X F)).super.super
          = (l.map X.fin).foldl Mean.push (Mean.init (X.fin f)) := by
        intro l
        induction l using List.reverseRecOn with
        | nil => rfl
        | append_singleton l y ih => rw [List.map_append, List.foldl_append, List.foldl_append, ← ih]; rfl
      have hm' := hsup (xs ++ [x])
      rw [List.map_append, List.map_singleton, List.foldl_append, List.foldl_append, h4] at *
      rw [List.map_append, List.map_singleton, List.foldl_append]
      set st := (xs.map X.fin).foldl Skewness.push (Skewness.init (X.fin f) (X.fin g) (X.fin h) : Skewness (X F))
      set sv := (rs.map X.fin).foldl Mean.push (Mean.init (X.fin i) : Mean (X F))
      simp only [List.foldl_cons, List.foldl_nil] at hm hm' ⊢
      unfold Kurtosis.push Skewness.mean Variance.mean
      simp only [hm', hm, a1, c1, d1, b1]
      simp only [Mean.push, h5]
    · rw [List.map_append, List.map_singleton, List.foldl_append]
      exact h5

/-- The two quotients: by the power of the standard deviation and by the normalization. -/
theorem shape_quotients (hF : F.Binary p emin) (hE : F.Err u η) {K Z z τ h s n S N e d M : ℝ} (hK : IsRep p emin K) (hKf : F.fits K)
    (hZ : 0 < Z) (hz : |z - Z| ≤ τ * Z) (hτ : 4 * τ ≤ 1) (hh : 0 < h) (hh1 : h ≤ 1) (hn : h ≤ n) (hN : 0 < N) (hN1 : N ≤ 1) (hS : |S / N| ≤ M)
    (hs : |s - S| ≤ e) (hnN : |n - N| ≤ d) (hd : 8 * d ≤ h) (hM : 3 * (M / Z) + 2 * (e / (h * Z)) + η / h ≤ K) :
    z ≠ 0 ∧ ∃ a r : ℝ, (X.fin s / X.fin z : X F) = X.fin a ∧ (X.fin a / X.fin n : X F) = X.fin r
      ∧ |r - S / N / Z| ≤ 2 * (e / (h * Z)) + (2 * τ + 4 * u + 2 * (d / h)) * (M / Z) + 3 * (η / h) := by
  have hu := hE.u_nonneg
  have hu8 := hE.u_le
  have hη0 := hE.eta_nonneg
  have hz' := abs_le.1 hz
  have hτ0 : 0 ≤ τ := by
    have := (abs_nonneg _).trans hz
    exact nonneg_of_mul_nonneg_left this hZ
  have hτZ : τ * Z ≤ 1 / 4 * Z := mul_le_mul_of_nonneg_right (by linarith) hZ.le
  have hz0 : 0 < z := by linarith
  have hz34 : 3 / 4 * Z ≤ z := by linarith
  have hn0 : 0 < n := by linarith
  have he0 : 0 ≤ e := (abs_nonneg _).trans hs
  have hd0 : 0 ≤ d := (abs_nonneg _).trans hnN
  have hM0 : 0 ≤ M := (abs_nonneg _).trans hS
  have hSN : |S| ≤ M * N := by
    rw [abs_div, abs_of_pos hN, div_le_iff₀ hN] at hS; exact hS
  obtain ⟨b, hb⟩ : ∃ b, b = M / Z := ⟨_, rfl⟩
  have hb0 : 0 ≤ b := by rw [hb]; positivity
  have hMb : M = b * Z := by rw [hb]; field_simp
  -- the first quotient
  have q1 : |s / z - S / Z| ≤ 4 / 3 * (e / Z + τ * b * N) := by
    have e0 : s / z - S / Z = ((s - S) - S / Z * (z - Z)) / z := by field_simp; ring
    rw [e0, abs_div, abs_of_pos hz0, div_le_iff₀ hz0]
    have i1 : |S / Z * (z - Z)| ≤ (b * N) * (τ * Z) := by
      rw [abs_mul, abs_div, abs_of_pos hZ]
      refine mul_le_mul ?_ hz (abs_nonneg _) (by positivity)
      rw [div_le_iff₀ hZ]; rw [hMb] at hSN; linarith
    have i2 := abs_sub (s - S) (S / Z * (z - Z))
    have i3 : 4 / 3 * (e / Z + τ * b * N) * (3 / 4 * Z) ≤ 4 / 3 * (e / Z + τ * b * N) * z :=
      mul_le_mul_of_nonneg_left hz34 (by positivity)
    have i4 : 4 / 3 * (e / Z + τ * b * N) * (3 / 4 * Z) = e + τ * b * N * Z := by field_simp
    linarith
  have hSZ : |S / Z| ≤ b * N := by
    rw [abs_div, abs_of_pos hZ, div_le_iff₀ hZ]; rw [hMb] at hSN; linarith
  have hbN : b * N ≤ b := mul_le_of_le_one_right hb0 hN1
  have hbN0 : 0 ≤ b * N := by positivity
  have hτbN : τ * b * N ≤ 1 / 4 * (b * N) := by
    have := mul_le_mul_of_nonneg_right (show τ ≤ 1 / 4 by linarith) hbN0; linarith
  have hE1 : e / Z ≤ e / (h * Z) := by
    refine div_le_div_of_nonneg_left he0 (by positivity) ?_
    exact mul_le_of_le_one_left hZ.le hh1
  have hηh : 0 ≤ η / h := by positivity
  have hηh1 : η ≤ η / h := by rw [le_div_iff₀ hh]; exact mul_le_of_le_one_right hη0 hh1
  have heZ0 : 0 ≤ e / Z := by positivity
  rw [← hb] at hM ⊢
  have q2 : |s / z| ≤ 4 / 3 * (b * N) + 4 / 3 * (e / Z) := by
    have := abs_add_le (s / z - S / Z) (S / Z)
    rw [sub_add_cancel] at this
    linarith
  obtain ⟨r1, -⟩ := hF.round_le hK hKf (r := s / z) (by linarith)
  have e1 := hE.err (s / z)
  have e1' := mul_le_mul_of_nonneg_left q2 hu
  have u1 : u * (b * N) ≤ 1 / 8 * (b * N) := mul_le_mul_of_nonneg_right hu8 hbN0
  have u2 : u * (e / Z) ≤ 1 / 8 * (e / Z) := mul_le_mul_of_nonneg_right hu8 heZ0
  obtain ⟨a, ha⟩ : ∃ a, a = F.rnd (s / z) := ⟨_, rfl⟩
  rw [← ha] at r1 e1
  have q3 : |a - S / Z| ≤ 3 / 2 * (e / Z) + (4 / 3 * τ + 4 / 3 * u) * (b * N) + η := by
    have := abs_add_le (a - s / z) (s / z - S / Z)
    rw [sub_add_sub_cancel] at this
    linarith
  -- the second quotient
  have hNn : N ≤ 9 / 8 * n := by
    have := abs_le.1 hnN; linarith
  have hhN : N / n ≤ 9 / 8 := by rw [div_le_iff₀ hn0]; exact hNn
  have q4 : |a / n - S / N / Z| ≤ 3 / 2 * (e / (h * Z)) + (3 / 2 * τ + 3 / 2 * u) * b + η / h + b * (d / h) := by
    have e0 : a / n - S / N / Z = ((a - S / Z) - S / N / Z * (n - N)) / n := by field_simp; ring
    have i1 : |S / N / Z * (n - N)| ≤ b * d := by
      rw [abs_mul, abs_div, abs_of_pos hZ]
      refine mul_le_mul ?_ hnN (abs_nonneg _) hb0
      rw [div_le_iff₀ hZ, ← hMb]; exact hS
    have i2 := abs_sub (a - S / Z) (S / N / Z * (n - N))
    rw [e0, abs_div, abs_of_pos hn0, div_le_iff₀ hn0]
    have j1 : e / Z ≤ e / (h * Z) * n := by
      have : e / (h * Z) * n = e / Z * (n / h) := by field_simp
      rw [this]
      exact le_mul_of_one_le_right heZ0 ((one_le_div hh).2 hn)
    have j2 : η ≤ η / h * n := by
      have : η / h * n = η * (n / h) := by field_simp
      rw [this]
      exact le_mul_of_one_le_right hη0 ((one_le_div hh).2 hn)
    have j3 : b * d ≤ b * (d / h) * n := by
      have : b * (d / h) * n = b * d * (n / h) := by field_simp
      rw [this]
      exact le_mul_of_one_le_right (by positivity) ((one_le_div hh).2 hn)
    have j4 : (4 / 3 * τ + 4 / 3 * u) * (b * N) ≤ (4 / 3 * τ + 4 / 3 * u) * (b * (9 / 8 * n)) :=
      mul_le_mul_of_nonneg_left (mul_le_mul_of_nonneg_left hNn hb0) (by positivity)
    linarith
  have hdh : d / h ≤ 1 / 8 := by rw [div_le_iff₀ hh]; linarith
  have hSNZ : |S / N / Z| ≤ b := by
    rw [abs_div, abs_of_pos hZ, div_le_iff₀ hZ, ← hMb]; exact hS
  have k1 : τ * b ≤ 1 / 4 * b := mul_le_mul_of_nonneg_right (by linarith) hb0
  have k2 : u * b ≤ 1 / 8 * b := mul_le_mul_of_nonneg_right hu8 hb0
  have k3 : b * (d / h) ≤ b * (1 / 8) := mul_le_mul_of_nonneg_left hdh hb0
  have hehZ : 0 ≤ e / (h * Z) := by positivity
  have q5 : |a / n| ≤ 2 * b + 3 / 2 * (e / (h * Z)) + η / h := by
    have := abs_add_le (a / n - S / N / Z) (S / N / Z)
    rw [sub_add_cancel] at this
    linarith
  obtain ⟨r2, -⟩ := hF.round_le hK hKf (r := a / n) (by linarith)
  have e2 := hE.err (a / n)
  have e2' := mul_le_mul_of_nonneg_left q5 hu
  have k4 : u * (e / (h * Z)) ≤ 1 / 8 * (e / (h * Z)) := mul_le_mul_of_nonneg_right hu8 hehZ
  have k5 : u * (η / h) ≤ 1 / 8 * (η / h) := mul_le_mul_of_nonneg_right hu8 hηh
  refine ⟨hz0.ne', a, F.rnd (a / n), ?_, ?_, ?_⟩
  · rw [X.div_fin_of_ne _ hz0.ne', r1]
  · rw [X.div_fin_of_ne _ hn0.ne', r2]
  · have := abs_add_le (F.rnd (a / n) - a / n) (a / n - S / N / Z)
    rw [sub_add_sub_cancel] at this
    have t0 : 0 ≤ τ * b := by positivity
    have t1 : 0 ≤ b * (d / h) := by positivity
    have t2 : 0 ≤ u * b := by positivity
    linarith

/-- The third power of the standard deviation, from a variance with relative error `ρ`. -/
theorem cube_of_sd (hF : F.Binary p emin) (hE : F.Err u η) {K V v ρ : ℝ} (hK : IsRep p emin K) (hKf : F.fits K) (hV : 0 < V)
    (hv : |v - V| ≤ ρ * V) (hρ : 12 * ρ + 24 * u ≤ 1) (hη1 : η ≤ u * √V) (hη3 : η ≤ u * √V ^ 3) (hK1 : 2 * √V ≤ K) (hK3 : 2 * √V ^ 3 ≤ K) :
    ∃ y z : ℝ, (sqrt (X.fin v : X F) : X F) = X.fin y ∧ (X.fin v * X.fin y : X F) = X.fin z ∧ |z - √V ^ 3| ≤ (3 * ρ + 6 * u) * √V ^ 3 := by
  have hu := hE.u_nonneg
  have hρ0 : 0 ≤ ρ := by
    have := (abs_nonneg _).trans hv
    exact nonneg_of_mul_nonneg_left this hV
  obtain ⟨σ, hσ⟩ : ∃ σ, σ = √V := ⟨_, rfl⟩
  have hσ0 : 0 < σ := by rw [hσ]; exact Real.sqrt_pos.2 hV
  have hσ2 : σ ^ 2 = V := by rw [hσ]; exact Real.sq_sqrt hV.le
  rw [← hσ] at hη1 hη3 hK1 hK3 ⊢
  have hv' := abs_le.1 hv
  have hρV : ρ * V ≤ 1 / 12 * V := mul_le_mul_of_nonneg_right (by linarith) hV.le
  have hv0 : 0 ≤ v := by linarith
  have hs : |√v - σ| ≤ ρ * σ := by
    have hsv := Real.sqrt_nonneg v
    have e0 : (√v - σ) * (√v + σ) = v - V := by
      have := Real.mul_self_sqrt hv0
      rw [← hσ2]; linarith
    have e1 : |√v - σ| * (√v + σ) ≤ ρ * V := by
      rw [← abs_of_nonneg (show 0 ≤ √v + σ by linarith), ← abs_mul, e0]; exact hv
    have e2 : |√v - σ| * σ ≤ |√v - σ| * (√v + σ) := mul_le_mul_of_nonneg_left (by linarith) (abs_nonneg _)
    refine le_of_mul_le_mul_right (a := σ) ?_ hσ0
    rw [← hσ2] at e1
    linarith
  have hρσ : ρ * σ ≤ 1 / 12 * σ := mul_le_mul_of_nonneg_right (by linarith) hσ0.le
  have huσ : u * σ ≤ 1 / 24 * σ := mul_le_mul_of_nonneg_right (by linarith) hσ0.le
  have hs' : |√v| ≤ 13 / 12 * σ := by
    have := abs_add_le (√v - σ) σ
    rw [sub_add_cancel, abs_of_pos hσ0] at this
    linarith
  obtain ⟨y1, y2, -⟩ := hE.round_step hF (U := σ) hK hKf hs hs' hη1 (by linarith) (by linarith)
  set y := F.rnd √v
  have y3 : |y - σ| ≤ (ρ + 3 * u) * σ := by
    have : 0 ≤ u * σ := by positivity
    linarith
  have y4 : |y| ≤ 5 / 4 * σ := by
    have := abs_add_le (y - σ) σ
    rw [sub_add_cancel, abs_of_pos hσ0] at this
    linarith
  have hσ3 : 0 < σ ^ 3 := by positivity
  have z1 : |v * y - σ ^ 3| ≤ (9 / 4 * ρ + 3 * u) * σ ^ 3 := by
    have e0 : v * y - σ ^ 3 = (v - V) * y + V * (y - σ) := by rw [← hσ2]; ring
    rw [e0]
    refine (abs_add_le _ _).trans ?_
    rw [abs_mul, abs_mul, abs_of_pos hV]
    have i1 := mul_le_mul hv y4 (abs_nonneg _) (by positivity)
    have i2 := mul_le_mul_of_nonneg_left y3 hV.le
    rw [← hσ2] at i1 i2 ⊢
    linarith
  have hρ3 : ρ * σ ^ 3 ≤ 1 / 12 * σ ^ 3 := mul_le_mul_of_nonneg_right (by linarith) hσ3.le
  have hu3 : u * σ ^ 3 ≤ 1 / 24 * σ ^ 3 := mul_le_mul_of_nonneg_right (by linarith) hσ3.le
  have z2 : |v * y| ≤ 3 / 2 * σ ^ 3 := by
    have := abs_add_le (v * y - σ ^ 3) (σ ^ 3)
    rw [sub_add_cancel, abs_of_pos hσ3] at this
    linarith
  obtain ⟨w1, w2, -⟩ := hE.round_step hF (U := σ ^ 3) hK hKf z1 z2 hη3 (by linarith) (by linarith)
  refine ⟨y, F.rnd (v * y), ?_, ?_, ?_⟩
  · rw [X.sqrt_fin_of_nonneg hv0, y1]
  · rw [X.mul_fin, w1]
  · have : 0 ≤ u * σ ^ 3 := by positivity
    have : 0 ≤ ρ * σ ^ 3 := by positivity
    linarith

/-- The square of a variance with relative error `ρ`. -/
theorem square_of_variance (hF : F.Binary p emin) (hE : F.Err u η) {K V v ρ : ℝ} (hK : IsRep p emin K) (hKf : F.fits K) (hV : 0 < V)
    (hv : |v - V| ≤ ρ * V) (hρ : 12 * ρ + 24 * u ≤ 1) (hη2 : η ≤ u * V ^ 2) (hK2 : 2 * V ^ 2 ≤ K) :
    ∃ z : ℝ, (X.fin v * X.fin v : X F) = X.fin z ∧ |z - V ^ 2| ≤ (3 * ρ + 6 * u) * V ^ 2 := by
  have hu := hE.u_nonneg
  have hρ0 : 0 ≤ ρ := by
    have := (abs_nonneg _).trans hv
    exact nonneg_of_mul_nonneg_left this hV
  have hV2 : 0 < V ^ 2 := by positivity
  have hρV : ρ * V ≤ 1 / 12 * V := mul_le_mul_of_nonneg_right (by linarith) hV.le
  have hvb : |v| ≤ 13 / 12 * V := by
    have := abs_add_le (v - V) V
    rw [sub_add_cancel, abs_of_pos hV] at this
    linarith
  have z1 : |v * v - V ^ 2| ≤ 25 / 12 * ρ * V ^ 2 := by
    have e0 : v * v - V ^ 2 = (v - V) * v + V * (v - V) := by ring
    rw [e0]
    refine (abs_add_le _ _).trans ?_
    rw [abs_mul, abs_mul, abs_of_pos hV]
    have i1 := mul_le_mul hv hvb (abs_nonneg _) (by positivity)
    have i2 := mul_le_mul_of_nonneg_left hv hV.le
    linarith
  have hρ2 : ρ * V ^ 2 ≤ 1 / 12 * V ^ 2 := mul_le_mul_of_nonneg_right (by linarith) hV2.le
  have z2 : |v * v| ≤ 3 / 2 * V ^ 2 := by
    have := abs_add_le (v * v - V ^ 2) (V ^ 2)
    rw [sub_add_cancel, abs_of_pos hV2] at this
    linarith
  obtain ⟨w1, w2, -⟩ := hE.round_step hF (U := V ^ 2) hK hKf z1 z2 hη2 (by linarith) (by linarith)
  refine ⟨F.rnd (v * v), ?_, ?_⟩
  · rw [X.mul_fin, w1]
  · have : 0 ≤ u * V ^ 2 := by positivity
    have : 0 ≤ ρ * V ^ 2 := by positivity
    linarith

end Decay
end Verif
