import Verif.Proofs.DecayRounded
import Verif.Proofs.WindowVarianceError
/-
The decay variance with rounding.
-/
namespace Verif
open Scalar

variable {F : Fmt} {p : Nat} {emin : Int} {u η : ℝ}

namespace Decay

/-- The bound of the error of the decay mean. -/
noncomputable def meanErr (u η f B : ℝ) : ℝ := (1 + u) * ((sumErr u η f B + B * sumErr u η f 1) / f) + u * B + η

/-- The decay mean after a sequence of values. -/
theorem Mean.fold_mean (hF : F.Binary p emin) (hE : F.Err u η) {f B K : ℝ} (hf0 : 0 < f) (hf1 : f ≤ 1)
    (hfr : IsRep p emin f) (hB0 : 0 ≤ B) (hK : IsRep p emin K) (hKf : F.fits K) (hBK : 8 * B ≤ K)
    (hBK' : B + (sumErr u η f B + B * sumErr u η f 1) / f ≤ K) (hc : sumErr u η f B ≤ B)
    (xs : List ℝ) (hB : ∀ x ∈ xs, |x| ≤ B) :
    ∃ m : ℝ, ((xs.map X.fin).foldl Mean.push (Mean.init (X.fin f)) : Mean (X F)).mean = X.fin m
      ∧ |m - Spec.ewMean f xs| ≤ meanErr u η f B := by
  have hc1 := sumErr_nonneg hE (zero_le_one (α := ℝ)) hf0
  have hcB := sumErr_nonneg hE hB0 hf0
  have hu := hE.u_nonneg
  have he := hE.eta_nonneg
  obtain ⟨n, hn⟩ := Mean.fold_norm (u := u) (η := η) hF hE hf0 hf1 hfr (xs.map X.fin)
  obtain ⟨s, h1, h2, h3⟩ := Mean.fold_sum (F := F) hF hE hB0 hf0 hf1 hK hKf hBK hc _ hB
  set st := (xs.map X.fin).foldl Mean.push (Mean.init (X.fin f) : Mean (X F))
  have hlen : (xs.map (X.fin : ℝ → X F)).length = xs.length := by simp
  show ∃ m, (if lt (ofNat 0) st.normalization then st.sumMean / st.normalization else ofNat 0) = X.fin m ∧ _
  rw [h2, hn.norm, hF.ofNat_zero, X.lt_fin]
  rcases eq_or_ne xs [] with h0 | h0
  · have : n = 0 := hn.empty (by rw [h0]; rfl)
    rw [this]
    refine ⟨0, by simp, ?_⟩
    rw [h0]
    simp only [Spec.ewMean, Spec.ewSum_nil, zero_div, sub_zero, abs_zero]
    unfold meanErr
    positivity
  · have hge : f ≤ n := hn.ge (by simpa using h0)
    have hN := Spec.norm_pos hf0 hf1 (n := xs.length) (by simpa using h0)
    have herr := hn.err
    rw [hlen] at herr
    obtain ⟨k1, k2⟩ := mean_err hF hE hK hKf hf0 hge hN (abs_ewMean_le hf0 hf1 hB0 hB) h3 herr hBK'
    exact ⟨_, by rw [decide_eq_true (by linarith), if_pos rfl, k1], k2⟩

/-- The computed squares of the deviations, and the filter as a decay mean of these squares. -/
theorem Variance.fold_squares (hF : F.Binary p emin) (hE : F.Err u η) {f g B K : ℝ} (hf0 : 0 < f) (hf1 : f ≤ 1) (hg0 : 0 < g) (hg1 : g ≤ 1)
    (hfr : IsRep p emin f) (hB0 : 0 ≤ B) (hK : IsRep p emin K) (hKf : F.fits K) (hBK : 8 * B ≤ K) (hBBK : 14 * (B * B) ≤ K)
    (hBK' : B + (sumErr u η f B + B * sumErr u η f 1) / f ≤ K) (hc : sumErr u η f B ≤ B) (hD : meanErr u η f B ≤ B)
    (hη : η ≤ u * B) (hηB : η ≤ u * (B * B)) (xs : List ℝ) (hB : ∀ x ∈ xs, |x| ≤ B) :
    ∃ rs : List ℝ, rs.length = xs.length ∧ (∀ r ∈ rs, |r| ≤ 14 * (B * B))
      ∧ |Spec.ewSum g rs - Spec.ewSum g ((Spec.ewDevs f xs).map (· ^ 2))| ≤ 6 * (B * meanErr u η f B) + 36 * (u * (B * B))
      ∧ ((xs.map X.fin).foldl Variance.push (Variance.init (X.fin f) (X.fin g)) : Variance (X F))
        = { super := (xs.map X.fin).foldl Mean.push (Mean.init (X.fin f)), varFactor := X.fin g,
            normalization := ((rs.map X.fin).foldl Mean.push (Mean.init (X.fin g)) : Mean (X F)).normalization,
            sumVariance := ((rs.map X.fin).foldl Mean.push (Mean.init (X.fin g)) : Mean (X F)).sumMean }
      ∧ ((rs.map X.fin).foldl Mean.push (Mean.init (X.fin g)) : Mean (X F)).meanFactor = X.fin g := by
  have hu := hE.u_nonneg
  have hD0 : 0 ≤ meanErr u η f B := by
    have hc1 := sumErr_nonneg hE (zero_le_one (α := ℝ)) hf0
    have hcB := sumErr_nonneg hE hB0 hf0
    have he := hE.eta_nonneg
    unfold meanErr; positivity
  induction xs using List.reverseRecOn with
  | nil =>
    refine ⟨[], rfl, by simp, ?_, rfl, rfl⟩
    rw [Spec.ewDevs_nil, List.map_nil, Spec.ewSum_nil, sub_zero, abs_zero]; positivity
  | append_singleton xs x ih =>
    obtain ⟨rs, h1, h2, h3, h4, h5⟩ := ih fun y hy => hB y (List.mem_append_left _ hy)
    obtain ⟨m, hm, he⟩ := Mean.fold_mean (f := f) hF hE hf0 hf1 hfr hB0 hK hKf hBK hBK' hc (xs ++ [x]) hB
    have hxB : |x| ≤ B := hB x (by simp)
    have hμ := abs_ewMean_le hf0 hf1 hB0 hB
    obtain ⟨a1, a2, a3, a4⟩ := hE.diff hF hK hKf (by linarith) hη hxB hμ he hD
    obtain ⟨c1, c2, c3⟩ := hE.prod hF hK hKf hBBK hB0 hD0 hηB a2 a3 a4 a2 a3
    set δ := F.rnd (x - m)
    set μ := Spec.ewMean f (xs ++ [x]) with hμd
    refine ⟨rs ++ [F.rnd (δ * δ)], by simp [h1], ?_, ?_, ?_, ?_⟩
    · intro r hr
      rcases List.mem_append.1 hr with hr | hr
      · exact h2 r hr
      · rw [List.mem_singleton.1 hr]; exact c3
    · rw [Spec.ewDevs_snoc, List.map_append, List.map_singleton, Spec.ewSum_snoc, Spec.ewSum_snoc, ← hμd]
      set c := 6 * (B * meanErr u η f B) + 36 * (u * (B * B))
      have e : (1 - g) * Spec.ewSum g rs + g * F.rnd (δ * δ) - ((1 - g) * Spec.ewSum g ((Spec.ewDevs f xs).map (· ^ 2)) + g * (x - μ) ^ 2)
          = (1 - g) * (Spec.ewSum g rs - Spec.ewSum g ((Spec.ewDevs f xs).map (· ^ 2))) + g * (F.rnd (δ * δ) - (x - μ) * (x - μ)) := by ring
      rw [e]
      refine (abs_add_le _ _).trans ?_
      rw [abs_mul, abs_mul, abs_of_pos hg0, abs_of_nonneg (by linarith : 0 ≤ 1 - g)]
      have k1 := mul_le_mul_of_nonneg_left h3 (by linarith : 0 ≤ 1 - g)
      have k2 := mul_le_mul_of_nonneg_left c2 hg0.le
      linarith
    · rw [List.map_append, List.map_singleton, List.foldl_append, List.foldl_append, h4] at *
      rw [List.map_append, List.map_singleton, List.foldl_append]
      set st := (xs.map X.fin).foldl Mean.push (Mean.init (X.fin f) : Mean (X F))
      set sv := (rs.map X.fin).foldl Mean.push (Mean.init (X.fin g) : Mean (X F))
      simp only [List.foldl_cons, List.foldl_nil] at hm ⊢
      unfold Variance.push
      simp only [hm, a1, c1]
      simp only [Mean.push, h5]
    · rw [List.map_append, List.map_singleton, List.foldl_append]
      exact h5

end Decay
end Verif
