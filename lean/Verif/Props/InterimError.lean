import Verif.Proofs.InterimError
import Verif.Props.Interim
import Verif.Props.VarianceError
/-
C109: the rounding errors of the interim mean, variance and covariance do not grow with the number of values.
-/
namespace Verif.Props
open Scalar Verif.Interim
open Verif.Cumulative (Mean Variance Comoment)

variable {w W : Nat} {F : Fmt} {p : Nat} {emin : Int} {u η : ℝ}

theorem Fmt.Data.mono' {xs l : List ℝ} (h : F.Data p emin xs) (hl : ∀ x ∈ l, x ∈ xs) : F.Data p emin l :=
  ⟨fun x hx => h.number x (hl x hx), fun x hx y hy => h.difference x (hl x hx) y (hl y hy)⟩

theorem fits_small (hF : F.Binary p emin) {n N : Nat} (h : n ≤ N) (hf : F.fits (N : ℝ)) : F.fits (n : ℝ) :=
  hF.fits_between hF.fits_zero hf (Nat.cast_nonneg n) (by exact_mod_cast h)

/-- C109, mean: the error is at most `(2 W + 21) u B`, for any number of values of size at most `B`. -/
theorem C109_mean_error (hF : F.Binary p emin) (hE : F.Err u η) (hW : 1 ≤ W) (hw : 2 * W < 2 ^ w) (hp : 2 * W ≤ 2 ^ p)
    (hf : F.fits ((2 * W : Nat) : ℝ)) {B K : ℝ} (hB0 : 0 ≤ B) (hη : η ≤ u * B) (hK : IsRep p emin K) (hKf : F.fits K)
    (hBK : 6 * W * B ≤ K) (hsmall : (2 * W + 9) * u ≤ 1) (ops : List (Op ℝ)) (hne : sinceClear ops ≠ [])
    (hd : F.Data p emin (sinceClear ops)) (hB : ∀ x ∈ sinceClear ops, |x| ≤ B) :
    ∃ r : ℝ, IMean.mean (Interim.run (finOps ops) : IMean w W (X F)) = X.fin r
      ∧ |r - Spec_interimMean W (sinceClear ops)| ≤ (2 * W + 21) * (u * B) := by
  have huB := mul_nonneg hE.u_nonneg hB0
  obtain ⟨r, h1, h2⟩ := meanWith_err (σ := Mean w (X F)) (M := B) (K := K) (e := (2 * W + 9) * (u * B)) hF hE hW hw le_rfl hp hf hB0 hη hK hKf
    (by push_cast; linarith) (by nlinarith) X.fin Mean.getMean Spec.mean ops hne
    (fun l hl hsub hlen => by
      refine ⟨Window.abs_mean_le hB0 fun y hy => hB y (hsub y hy), ?_⟩
      obtain ⟨m, hm, he⟩ := Cumulative.Mean.rounded_err (w := w) hF hE l (Fmt.Data.mono' hd hsub) (by omega) (by omega)
        (fits_small hF (show l.length ≤ 2 * W by omega) hf) (fun y hy => hB y (hsub y hy))
      refine ⟨m, hm.mean, ?_⟩
      have hpos : (0 : ℝ) < l.length := by exact_mod_cast List.length_pos_iff.2 hl
      have hlW : (l.length : ℝ) ≤ W := by exact_mod_cast hlen
      have h0 := mul_le_mul_of_nonneg_right hlW huB
      have hη' := mul_le_mul_of_nonneg_left hη hpos.le
      have h3 : |m - Spec.mean l| ≤ (5 * (u * B) + 2 * η) + (l.length + 1) / 2 * (u * B + 3 * η) := by
        refine le_of_mul_le_mul_left (he.trans (le_of_eq ?_)) hpos
        ring
      linarith)
  refine ⟨r, h1, ?_⟩
  have e : (2 * (W : ℝ) + 9) * (u * B) + 12 * (u * B) = (2 * W + 21) * (u * B) := by ring
  rw [e] at h2
  exact h2

/-- C109, variance: the error is at most `(6 W + 80) u B²`. -/
theorem C109_variance_error (hF : F.Binary p emin) (hE : F.Err u η) (hW : 1 ≤ W) (hw : W * W < 2 ^ w) (hp : W * W ≤ 2 ^ p)
    (hf : F.fits ((W * W : Nat) : ℝ)) {B K : ℝ} (hB0 : 0 ≤ B) (hηB : η ≤ u * B) (hηBB : η ≤ u * (B * B)) (hK : IsRep p emin K)
    (hKf : F.fits K) (hBK : 8 * (W * W) * (B * B) ≤ K) (hsmall : (6 * W + 68) * u ≤ 1) (ops : List (Op ℝ))
    (hne : sinceClear ops ≠ []) (hd : F.Data p emin (sinceClear ops)) (hB : ∀ x ∈ sinceClear ops, |x| ≤ B) :
    ∃ r : ℝ, IVariance.variance (Interim.run (finOps ops) : IVariance w W (X F)) = X.fin r
      ∧ |r - Spec_interimVariance W Spec.variance (sinceClear ops)| ≤ (6 * W + 80) * (u * (B * B)) := by
  have hu := hE.u_nonneg
  have hBB := mul_nonneg hB0 hB0
  have huB := mul_nonneg hu hBB
  have hWW : W ≤ W * W := Nat.le_mul_of_pos_left W hW
  have hW1 : (1 : ℝ) ≤ W := by exact_mod_cast hW
  have hWWr : (W : ℝ) ≤ W * W := by exact_mod_cast hWW
  obtain ⟨r, h1, h2⟩ := varianceWith_err (σ := Variance w (X F)) (M := B * B) (K := K) (e := (6 * W + 68) * (u * (B * B))) hF hE X.mul_comm hW hw hp hf hBB
    hηBB hK hKf (by push_cast; nlinarith [mul_nonneg (mul_nonneg (by linarith : (0 : ℝ) ≤ W) (by linarith : (0 : ℝ) ≤ W)) hBB])
    (by nlinarith) X.fin Variance.variance Spec.variance ops hne
    (fun l hl hsub hlen => by
      have hlB : ∀ y ∈ l, |y| ≤ B := fun y hy => hB y (hsub y hy)
      have hpos : (0 : ℝ) < l.length := by exact_mod_cast List.length_pos_iff.2 hl
      have hlW : (l.length : ℝ) ≤ W := by exact_mod_cast hlen
      have hs := sinceClear_pushes l
      refine ⟨?_, ?_⟩
      · rw [Spec.variance, abs_div, abs_of_pos hpos, div_le_iff₀ hpos, abs_of_nonneg (Spec.central_two_nonneg _)]
        have := Spec.central_two_le l hlB
        linarith
      · obtain ⟨v, hv, he⟩ := C70_variance_error (w := w) hF hE (K := K) hB0 hηB hηBB hK hKf (l.map Op.push) (by rw [hs]; exact hl)
          (by rw [hs]; exact Fmt.Data.mono' hd hsub) (by rw [hs]; omega) (by rw [hs]; omega)
          (by rw [hs]; exact fits_small hF (show l.length ≤ W * W by omega) hf) (by rw [hs]; exact hlB)
          (by
            rw [hs]
            have := mul_le_mul_of_nonneg_right (hlW.trans hWWr) hBB
            linarith)
          (by rw [hs]; nlinarith)
        refine ⟨v, ?_, ?_⟩
        · rw [Variance.run_eq, sinceClear_finOps, hs] at hv; exact hv
        · rw [hs] at he
          have := mul_le_mul_of_nonneg_right hlW huB
          linarith)
  refine ⟨r, h1, ?_⟩
  have e : (6 * (W : ℝ) + 68) * (u * (B * B)) + 12 * (u * (B * B)) = (6 * W + 80) * (u * (B * B)) := by ring
  rw [e] at h2
  exact h2

/-- C109, covariance: the error is at most `(6 W + 80) u A B`. -/
theorem C109_covariance_error (hF : F.Binary p emin) (hE : F.Err u η) (hW : 1 ≤ W) (hw : W * W < 2 ^ w) (hp : W * W ≤ 2 ^ p)
    (hf : F.fits ((W * W : Nat) : ℝ)) {A B K : ℝ} (hA0 : 0 ≤ A) (hB0 : 0 ≤ B) (hηA : η ≤ u * A) (hηB : η ≤ u * B)
    (hηAB : η ≤ u * (A * B)) (hK : IsRep p emin K) (hKf : F.fits K) (hBK : 8 * (W * W) * (A * B) ≤ K)
    (hsmall : (6 * W + 68) * u ≤ 1) (ops : List (Op (ℝ × ℝ))) (hne : sinceClear ops ≠ [])
    (hdx : F.Data p emin (Spec.xsOf (sinceClear ops))) (hdy : F.Data p emin (Spec.ysOf (sinceClear ops)))
    (hA : ∀ q ∈ sinceClear ops, |q.1| ≤ A) (hB : ∀ q ∈ sinceClear ops, |q.2| ≤ B) :
    ∃ r : ℝ, IComoment.variance (Interim.run (finOps2 ops) : IComoment w W (X F)) = X.fin r
      ∧ |r - Spec_interimVariance W Spec.covariance (sinceClear ops)| ≤ (6 * W + 80) * (u * (A * B)) := by
  have hu := hE.u_nonneg
  have hAB := mul_nonneg hA0 hB0
  have huAB := mul_nonneg hu hAB
  have hWW : W ≤ W * W := Nat.le_mul_of_pos_left W hW
  have hW1 : (1 : ℝ) ≤ W := by exact_mod_cast hW
  have hWWr : (W : ℝ) ≤ W * W := by exact_mod_cast hWW
  obtain ⟨r, h1, h2⟩ := varianceWith_err (σ := Comoment w (X F)) (M := A * B) (K := K) (e := (6 * W + 68) * (u * (A * B))) hF hE X.mul_comm hW hw hp hf hAB
    hηAB hK hKf (by push_cast; nlinarith [mul_nonneg (mul_nonneg (by linarith : (0 : ℝ) ≤ W) (by linarith : (0 : ℝ) ≤ W)) hAB])
    (by nlinarith) (fun q : ℝ × ℝ => ((X.fin q.1, X.fin q.2) : X F × X F)) Comoment.variance Spec.covariance ops hne
    (fun l hl hsub hlen => by
      have hlA : ∀ q ∈ l, |q.1| ≤ A := fun y hy => hA y (hsub y hy)
      have hlB : ∀ q ∈ l, |q.2| ≤ B := fun y hy => hB y (hsub y hy)
      have hpos : (0 : ℝ) < l.length := by exact_mod_cast List.length_pos_iff.2 hl
      have hlW : (l.length : ℝ) ≤ W := by exact_mod_cast hlen
      have hs := sinceClear_pushes l
      refine ⟨?_, ?_⟩
      · rw [Spec.covariance, abs_div, abs_of_pos hpos, div_le_iff₀ hpos]
        have := Spec.abs_cosum_le hA0 hB0 l hlA hlB
        linarith
      · obtain ⟨v, hv, he⟩ := C70_covariance_error (w := w) hF hE (K := K) hA0 hB0 hηA hηB hηAB hK hKf (l.map Op.push)
          (by rw [hs]; exact hl)
          (by rw [hs]; refine Fmt.Data.mono' hdx fun x hx => ?_
              obtain ⟨q, hq, rfl⟩ := List.mem_map.1 hx; exact List.mem_map_of_mem (hsub q hq))
          (by rw [hs]; refine Fmt.Data.mono' hdy fun x hx => ?_
              obtain ⟨q, hq, rfl⟩ := List.mem_map.1 hx; exact List.mem_map_of_mem (hsub q hq))
          (by rw [hs]; omega) (by rw [hs]; omega)
          (by rw [hs]; exact fits_small hF (show l.length ≤ W * W by omega) hf) (by rw [hs]; exact hlA) (by rw [hs]; exact hlB)
          (by
            rw [hs]
            have := mul_le_mul_of_nonneg_right (hlW.trans hWWr) hAB
            linarith)
          (by rw [hs]; nlinarith)
        refine ⟨v, ?_, ?_⟩
        · rw [Comoment.run_eq, sinceClear_finOps2, hs] at hv; exact hv
        · rw [hs] at he
          have := mul_le_mul_of_nonneg_right hlW huAB
          linarith)
  refine ⟨r, h1, ?_⟩
  have e : (6 * (W : ℝ) + 68) * (u * (A * B)) + 12 * (u * (A * B)) = (6 * W + 80) * (u * (A * B)) := by ring
  rw [e] at h2
  exact h2

/-- `double`, `W = 2`, the values 1, 2, 6: the weighted average of the means 3/2 and 6 is 9/2. -/
example : ∃ r : ℝ, IMean.mean (Interim.run (finOps [.push 100, .clear, .push 1, .push 2, .push 6]) : IMean 64 2 (X binary64)) = X.fin r
    ∧ |r - 9 / 2| ≤ 150 * 2 ^ (-53 : Int) := by
  have hs : sinceClear ([.push 100, .clear, .push 1, .push 2, .push 6] : List (Op ℝ)) = [1, 2, 6] := rfl
  have hη : (2 : ℝ) ^ (-1075 : Int) ≤ 2 ^ (-53 : Int) := zpow_le_zpow_right₀ (by norm_num) (by norm_num)
  have hu : (0 : ℝ) < 2 ^ (-53 : Int) := by positivity
  have hK := binary64_int (n := 72) (by norm_num)
  have h4 := binary64_int (n := 4) (by norm_num)
  push_cast at hK h4
  obtain ⟨r, h1, h2⟩ := C109_mean_error (w := 64) (W := 2) binary64_binary binary64_err (by norm_num) (by norm_num) (by norm_num)
    (by simpa using h4.2) (B := 6) (K := 72) (by norm_num) (by linarith) hK.1 hK.2 (by norm_num) (by norm_num)
    [.push 100, .clear, .push 1, .push 2, .push 6] (by rw [hs]; simp)
    (by rw [hs]; have := binary64_data [1, 2, 6] (by simp); simpa using this)
    (by rw [hs]; intro x hx; simp only [List.mem_cons, List.not_mem_nil, or_false] at hx
        rcases hx with rfl | rfl | rfl <;> norm_num)
  refine ⟨r, h1, ?_⟩
  have e1 : Spec.prevBlock 2 ([1, 2, 6] : List ℝ) = [1, 2] := by simp [Spec.prevBlock]
  have e2 : Spec.curBlock 2 ([1, 2, 6] : List ℝ) = [6] := by simp [Spec.curBlock]
  have e : Spec_interimMean 2 [1, 2, 6] = 9 / 2 := by
    rw [Spec_interimMean, e1, e2, if_neg (by simp)]
    simp [Spec.blend, Spec.mean]; norm_num
  rw [hs, e] at h2
  refine h2.trans (le_of_eq ?_)
  norm_num

/-- `double`, `W = 2`, the values 1, 2, 6, 4: the weighted average of the variances 1/4 and 1 is 3/4. -/
example : ∃ r : ℝ, IVariance.variance (Interim.run (finOps [.push 100, .clear, .push 1, .push 2, .push 6, .push 4]) : IVariance 64 2 (X binary64)) = X.fin r
    ∧ |r - 3 / 4| ≤ 3312 * 2 ^ (-53 : Int) := by
  have hs : sinceClear ([.push 100, .clear, .push 1, .push 2, .push 6, .push 4] : List (Op ℝ)) = [1, 2, 6, 4] := rfl
  have hη : (2 : ℝ) ^ (-1075 : Int) ≤ 2 ^ (-53 : Int) := zpow_le_zpow_right₀ (by norm_num) (by norm_num)
  have hu : (0 : ℝ) < 2 ^ (-53 : Int) := by positivity
  have hK := binary64_int (n := 1152) (by norm_num)
  have h4 := binary64_int (n := 4) (by norm_num)
  push_cast at hK h4
  obtain ⟨r, h1, h2⟩ := C109_variance_error (w := 64) (W := 2) binary64_binary binary64_err (by norm_num) (by norm_num) (by norm_num)
    (by simpa using h4.2) (B := 6) (K := 1152) (by norm_num) (by linarith) (by linarith) hK.1 hK.2 (by norm_num) (by norm_num)
    [.push 100, .clear, .push 1, .push 2, .push 6, .push 4] (by rw [hs]; simp)
    (by rw [hs]; have := binary64_data [1, 2, 6, 4] (by simp); simpa using this)
    (by rw [hs]; intro x hx; simp only [List.mem_cons, List.not_mem_nil, or_false] at hx
        rcases hx with rfl | rfl | rfl | rfl <;> norm_num)
  refine ⟨r, h1, ?_⟩
  have e1 : Spec.prevBlock 2 ([1, 2, 6, 4] : List ℝ) = [1, 2] := by simp [Spec.prevBlock]
  have e2 : Spec.curBlock 2 ([1, 2, 6, 4] : List ℝ) = [6, 4] := by simp [Spec.curBlock]
  have e : Spec_interimVariance 2 Spec.variance [1, 2, 6, 4] = 3 / 4 := by
    rw [Spec_interimVariance, e1, e2, if_neg (by simp)]
    simp [Spec.blend, Spec.variance, Spec.central, Spec.mean]; norm_num
  rw [hs, e] at h2
  refine h2.trans (le_of_eq ?_)
  norm_num

/-- `double`, `W = 2`: the weighted average of the covariances -2 and 1 is 0. -/
example : ∃ r : ℝ, IComoment.variance (Interim.run (finOps2 [.push (0, 1), .push (2, -3), .push (0, 0), .push (2, 2)]) : IComoment 64 2 (X binary64)) = X.fin r
    ∧ |r| ≤ 552 * 2 ^ (-53 : Int) := by
  have hs : sinceClear [.push (0, 1), .push (2, -3), .push (0, 0), .push (2, 2)] = ([(0, 1), (2, -3), (0, 0), (2, 2)] : List (ℝ × ℝ)) := rfl
  have hη : (2 : ℝ) ^ (-1075 : Int) ≤ 2 ^ (-53 : Int) := zpow_le_zpow_right₀ (by norm_num) (by norm_num)
  have hu : (0 : ℝ) < 2 ^ (-53 : Int) := by positivity
  have hK := binary64_int (n := 192) (by norm_num)
  have h4 := binary64_int (n := 4) (by norm_num)
  push_cast at hK h4
  obtain ⟨r, h1, h2⟩ := C109_covariance_error (w := 64) (W := 2) binary64_binary binary64_err (by norm_num) (by norm_num) (by norm_num)
    (by simpa using h4.2) (A := 2) (B := 3) (K := 192) (by norm_num) (by norm_num) (by linarith) (by linarith) (by linarith) hK.1 hK.2
    (by norm_num) (by norm_num)
    [.push (0, 1), .push (2, -3), .push (0, 0), .push (2, 2)] (by rw [hs]; simp)
    (by rw [hs]; have := binary64_data [0, 2, 0, 2] (by simp); simpa [Spec.xsOf] using this)
    (by rw [hs]; have := binary64_data [1, -3, 0, 2] (by simp); simpa [Spec.ysOf] using this)
    (by rw [hs]; intro x hx; simp only [List.mem_cons, List.not_mem_nil, or_false] at hx
        rcases hx with rfl | rfl | rfl | rfl <;> norm_num)
    (by rw [hs]; intro x hx; simp only [List.mem_cons, List.not_mem_nil, or_false] at hx
        rcases hx with rfl | rfl | rfl | rfl <;> norm_num)
  refine ⟨r, h1, ?_⟩
  have e1 : Spec.prevBlock 2 ([(0, 1), (2, -3), (0, 0), (2, 2)] : List (ℝ × ℝ)) = [(0, 1), (2, -3)] := by simp [Spec.prevBlock]
  have e2 : Spec.curBlock 2 ([(0, 1), (2, -3), (0, 0), (2, 2)] : List (ℝ × ℝ)) = [(0, 0), (2, 2)] := by simp [Spec.curBlock]
  have e : Spec_interimVariance 2 Spec.covariance [(0, 1), (2, -3), (0, 0), (2, 2)] = 0 := by
    rw [Spec_interimVariance, e1, e2, if_neg (by simp)]
    simp [Spec.blend, Spec.covariance, Spec.cosum, Spec.mean]; norm_num
  rw [hs, e, sub_zero] at h2
  refine h2.trans (le_of_eq ?_)
  norm_num

end Verif.Props
