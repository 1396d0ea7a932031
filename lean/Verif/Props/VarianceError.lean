import Verif.Proofs.CovarianceError
import Verif.Proofs.Interim
import Verif.Props.CovarianceRounded
/-
C70: rounding errors of the cumulative covariance and variance.
-/
namespace Verif.Props
open Scalar

variable {w : Nat} {F : Fmt} {p : Nat} {emin : Int} {u η : ℝ}

/-- C70: the rounding error of the covariance of `n` pairs with coordinates of size at most `A` and `B` is at most
`(6 n + 68) u A B`.  The hypotheses on `η` exclude data that underflows, the one on `K` overflow. -/
theorem C70_covariance_error (hF : F.Binary p emin) (hE : F.Err u η) {A B K : ℝ} (hA0 : 0 ≤ A) (hB0 : 0 ≤ B)
    (hηA : η ≤ u * A) (hηB : η ≤ u * B) (hηAB : η ≤ u * (A * B)) (hK : IsRep p emin K) (hKf : F.fits K)
    (ops : List (Op (ℝ × ℝ))) (hne : sinceClear ops ≠ []) (hdx : F.Data p emin (Spec.xsOf (sinceClear ops)))
    (hdy : F.Data p emin (Spec.ysOf (sinceClear ops)))
    (hw : (sinceClear ops).length < 2 ^ w) (hp : (sinceClear ops).length ≤ 2 ^ p) (hfit : F.fits ((sinceClear ops).length : ℝ))
    (hA : ∀ q ∈ sinceClear ops, |q.1| ≤ A) (hB : ∀ q ∈ sinceClear ops, |q.2| ≤ B)
    (hBK : 8 * (sinceClear ops).length * (A * B) ≤ K) (hsmall : (6 * (sinceClear ops).length + 65) * u ≤ 1) :
    ∃ c : ℝ, (Cumulative.Comoment.run (finOps2 ops) : Cumulative.Comoment w (X F)).variance = X.fin c
      ∧ |c - Spec.covariance (sinceClear ops)| ≤ (6 * (sinceClear ops).length + 68) * (u * (A * B)) := by
  obtain ⟨S, hS, he⟩ := Cumulative.Comoment.rounded_err (w := w) hF hE hA0 hB0 hηA hηB hηAB hK hKf _ hdx hdy hw hp hfit hA hB hBK hsmall
  have hcos := Spec.abs_cosum_le hA0 hB0 _ hA hB
  have hlen := List.length_pos_iff.2 hne
  rw [Cumulative.Comoment.run_eq, sinceClear_finOps2]
  have hsize : (((sinceClear ops).map fun q => ((X.fin q.1, X.fin q.2) : X F × X F)).foldl Cumulative.Comoment.push
      (Cumulative.Comoment.init : Cumulative.Comoment w (X F))).size = BitVec.ofNat w (sinceClear ops).length := by
    have h := Interim.size_foldB (σ := Cumulative.Comoment w (X F)) ((sinceClear ops).map fun q => ((X.fin q.1, X.fin q.2) : X F × X F))
    rw [List.length_map] at h
    exact h
  unfold Cumulative.Comoment.variance
  rw [hsize, hS, if_pos (by rw [gt_iff_lt, BitVec.lt_def, toNat_ofNat_lt hw]; simpa using hlen), ofSize, toNat_ofNat_lt hw,
    hF.ofNat_fin hp hfit]
  unfold Spec.covariance
  set n := (sinceClear ops).length
  have hpos : (0 : ℝ) < n := by exact_mod_cast hlen
  have h1n : (1 : ℝ) ≤ n := by exact_mod_cast hlen
  set C := Spec.cosum (sinceClear ops)
  have hu := hE.u_nonneg
  have hAB := mul_nonneg hA0 hB0
  have hSb : |S| ≤ n * (2 * (A * B)) := by
    have e : S = (S - C) + C := by ring
    rw [e]
    refine (abs_add_le _ _).trans ?_
    have : (n : ℝ) * (A * B) * ((6 * n + 65) * u) ≤ n * (A * B) * 1 := mul_le_mul_of_nonneg_left hsmall (by positivity)
    linarith
  have hdiv : |S / n| ≤ 2 * (A * B) := by
    rw [abs_div, abs_of_pos hpos, div_le_iff₀ hpos]; linarith
  have hnAB := mul_le_mul_of_nonneg_right h1n hAB
  obtain ⟨r1, -⟩ := hF.round_le hK hKf (r := S / n) (hdiv.trans (by linarith))
  rw [X.div_fin_of_ne _ hpos.ne', r1]
  refine ⟨_, rfl, ?_⟩
  have h1 := hE.err (S / n)
  have h2 := mul_le_mul_of_nonneg_left hdiv hu
  have h3 : |S / n - C / n| ≤ (6 * n + 65) * (u * (A * B)) := by
    rw [← sub_div, abs_div, abs_of_pos hpos, div_le_iff₀ hpos]; linarith
  have e : F.rnd (S / n) - C / n = (F.rnd (S / n) - S / n) + (S / n - C / n) := by ring
  rw [e]
  refine (abs_add_le _ _).trans ?_
  linarith

theorem finOps2_self (ops : List (Op ℝ)) : (finOps2 (selfOps ops) : List (Op (X F × X F))) = selfOps (finOps ops) := by
  unfold finOps2 selfOps finOps
  rw [List.map_map, List.map_map]
  refine List.map_congr_left fun o _ => ?_
  cases o <;> rfl

/-- C70 for the variance. -/
theorem C70_variance_error (hF : F.Binary p emin) (hE : F.Err u η) {B K : ℝ} (hB0 : 0 ≤ B)
    (hηB : η ≤ u * B) (hηBB : η ≤ u * (B * B)) (hK : IsRep p emin K) (hKf : F.fits K)
    (ops : List (Op ℝ)) (hne : sinceClear ops ≠ []) (hd : F.Data p emin (sinceClear ops))
    (hw : (sinceClear ops).length < 2 ^ w) (hp : (sinceClear ops).length ≤ 2 ^ p) (hfit : F.fits ((sinceClear ops).length : ℝ))
    (hB : ∀ x ∈ sinceClear ops, |x| ≤ B)
    (hBK : 8 * (sinceClear ops).length * (B * B) ≤ K) (hsmall : (6 * (sinceClear ops).length + 65) * u ≤ 1) :
    ∃ v : ℝ, (Cumulative.Variance.run (finOps ops) : Cumulative.Variance w (X F)).variance = X.fin v
      ∧ |v - Spec.variance (sinceClear ops)| ≤ (6 * (sinceClear ops).length + 68) * (u * (B * B)) := by
  have hs : sinceClear (selfOps ops) = (sinceClear ops).map fun x => (x, x) := sinceClear_map _ _
  have hx : Spec.xsOf (sinceClear (selfOps ops)) = sinceClear ops := by rw [hs]; simp [Spec.xsOf, Function.comp_def]
  have hy : Spec.ysOf (sinceClear (selfOps ops)) = sinceClear ops := by rw [hs]; simp [Spec.ysOf, Function.comp_def]
  have hl : (sinceClear (selfOps ops)).length = (sinceClear ops).length := by rw [hs, List.length_map]
  have hq : ∀ q ∈ sinceClear (selfOps ops), |q.1| ≤ B ∧ |q.2| ≤ B := by
    rw [hs]; intro q hq; obtain ⟨x, hx, rfl⟩ := List.mem_map.1 hq; exact ⟨hB x hx, hB x hx⟩
  obtain ⟨c, h1, h2⟩ := C70_covariance_error (w := w) hF hE hB0 hB0 hηB hηB hηBB hK hKf (selfOps ops)
    (by rw [hs]; simpa using hne) (by rw [hx]; exact hd) (by rw [hy]; exact hd) (by rw [hl]; exact hw) (by rw [hl]; exact hp)
    (by rw [hl]; exact hfit) (fun q h => (hq q h).1) (fun q h => (hq q h).2) (by rw [hl]; exact hBK) (by rw [hl]; exact hsmall)
  refine ⟨c, ?_, ?_⟩
  · rw [finOps2_self, (C67_self_partial (w := w) (finOps ops : List (Op (X F)))).2.1] at h1
    · exact h1
    · have : (Cumulative.Variance.run (finOps ops) : Cumulative.Variance w (X F)).size = BitVec.ofNat w (sinceClear ops).length := by
        have h := Interim.size_foldB (σ := Cumulative.Variance w (X F)) ((sinceClear ops).map X.fin)
        rw [List.length_map] at h
        rw [Cumulative.Variance.run_eq, sinceClear_finOps]; exact h
      rw [this, BitVec.lt_def, toNat_ofNat_lt hw]
      simpa using List.length_pos_iff.2 hne
  · rw [hl] at h2
    have e : Spec.covariance (sinceClear (selfOps ops)) = Spec.variance (sinceClear ops) := by
      rw [Spec.covariance, Spec.variance, hl, hs, Spec.cosum_diag]
    rwa [e] at h2

/-- The `double` variance of 1, 2, 6 is 14/3 up to `86 * 36 * 2^-53`. -/
example : ∃ v : ℝ, (Cumulative.Variance.run (finOps [.push 100, .clear, .push 1, .push 2, .push 6]) : Cumulative.Variance 64 (X binary64)).variance = X.fin v
    ∧ |v - 14 / 3| ≤ 86 * (2 ^ (-53 : Int) * 36) := by
  have hs : sinceClear ([.push 100, .clear, .push 1, .push 2, .push 6] : List (Op ℝ)) = [1, 2, 6] := rfl
  have hη : (2 : ℝ) ^ (-1075 : Int) ≤ 2 ^ (-53 : Int) := zpow_le_zpow_right₀ (by norm_num) (by norm_num)
  have hu : (0 : ℝ) < 2 ^ (-53 : Int) := by positivity
  have hK := binary64_int (n := 864) (by norm_num)
  have h3 := binary64_int (n := 3) (by norm_num)
  push_cast at hK h3
  obtain ⟨v, h1, h2⟩ := C70_variance_error (w := 64) binary64_binary binary64_err (B := 6) (K := 864) (by norm_num) (by linarith)
    (by linarith) hK.1 hK.2 [.push 100, .clear, .push 1, .push 2, .push 6] (by rw [hs]; simp)
    (by rw [hs]; have := binary64_data [1, 2, 6] (by simp); simpa using this) (by rw [hs]; simp) (by rw [hs]; norm_num)
    (by rw [hs]; simpa using h3.2) (by rw [hs]; intro x hx; simp only [List.mem_cons, List.not_mem_nil, or_false] at hx
                                       rcases hx with rfl | rfl | rfl <;> norm_num)
    (by rw [hs]; norm_num) (by rw [hs]; norm_num)
  refine ⟨v, h1, ?_⟩
  rw [hs] at h2
  have e : Spec.variance [1, 2, 6] = 14 / 3 := by
    simp [Spec.variance, Spec.central, Spec.mean]; norm_num
  rw [e] at h2
  refine h2.trans (le_of_eq ?_)
  simp only [List.length_cons, List.length_nil]
  norm_num

end Verif.Props
