import Verif.Proofs.WindowVarianceError
import Verif.Props.CovarianceRounded
/-
C107: drift of the window variance and covariance in floating point.
-/
namespace Verif.Props
open Scalar

variable {N : Nat} {F : Fmt} {p : Nat} {emin : Int} {u η : ℝ}

/-- The variance from the sum of squares. -/
theorem variance_of_sum (hF : F.Binary p emin) (hE : F.Err u η) {K S V d e E C : ℝ} (hK : IsRep p emin K) (hKf : F.fits K)
    (hd : 1 ≤ d) (hV0 : 0 ≤ V) (hS : |S - V| ≤ E) (hVC : V ≤ C * d) (hEe : E ≤ e * d) (hVK : V + E ≤ K) (hη : η ≤ u * C) :
    ∃ v, Scalar.max (ofNat 0) (X.fin S / X.fin d : X F) = X.fin v ∧ |v - V / d| ≤ 9 / 8 * e + 2 * (u * C) := by
  have hd0 : 0 < d := by linarith
  have hu := hE.u_nonneg
  have hSb : |S| ≤ V + E := by
    have := abs_add_le (S - V) V
    rw [sub_add_cancel, abs_of_nonneg hV0] at this
    linarith
  have hSd : |S / d| ≤ V + E := by
    rw [abs_div, abs_of_pos hd0, div_le_iff₀ hd0]
    exact hSb.trans (le_mul_of_one_le_right ((abs_nonneg _).trans hSb) hd)
  obtain ⟨r1, -⟩ := hF.round_le (F := F) hK hKf (hSd.trans hVK)
  rw [X.div_fin_of_ne _ hd0.ne', r1, hF.ofNat_zero]
  refine ⟨max 0 (F.rnd (S / d)), ?_, ?_⟩
  · unfold Scalar.max
    rw [X.lt_fin]
    by_cases h : 0 < F.rnd (S / d)
    · rw [if_pos (by simpa using h), max_eq_right h.le]
    · rw [if_neg (by simpa using h), max_eq_left (not_lt.1 h)]
  · have hVd : 0 ≤ V / d := div_nonneg hV0 hd0.le
    have h1 := abs_max_sub_max_le_abs (F.rnd (S / d)) (V / d) 0
    rw [max_comm _ 0, max_eq_left hVd] at h1
    refine h1.trans ?_
    have h2 : |S / d - V / d| ≤ e := by
      rw [← sub_div, abs_div, abs_of_pos hd0, div_le_iff₀ hd0]; exact hS.trans hEe
    have h3 : |V / d| ≤ C := by
      rw [abs_of_nonneg hVd, div_le_iff₀ hd0]; exact hVC
    have h4 : |S / d| ≤ C + e := by
      have := abs_add_le (S / d - V / d) (V / d)
      rw [sub_add_cancel] at this
      linarith
    have h5 := hE.err (S / d)
    have h6 := mul_le_mul_of_nonneg_left h4 hu
    have he0 : 0 ≤ e := (abs_nonneg _).trans h2
    have h7 : u * e ≤ 1 / 8 * e := mul_le_mul_of_nonneg_right hE.u_le he0
    have e1 : F.rnd (S / d) - V / d = (F.rnd (S / d) - S / d) + (S / d - V / d) := by ring
    rw [e1]
    refine (abs_add_le _ _).trans ?_
    linarith

/-- C107 for the variance: after `t` values of size at most `B` the window variance of the last `n = min N t` values has
an error of at most `(230 t (t + N) / n + 2) u B²`.  `hη`, `hηB` exclude data that underflows, `hBK`, `hBBK` overflow. -/
theorem C107_variance_drift (hF : F.Binary p emin) (hE : F.Err u η) (hN : 1 ≤ N) (hp : N ≤ 2 ^ p) (hfit : F.fits (N : ℝ))
    {B K : ℝ} (hB0 : 0 ≤ B) (hK : IsRep p emin K) (hKf : F.fits K) (hBK : 8 * B ≤ K) (hBBK : 34 * (N * (B * B)) ≤ K)
    (hη : η ≤ u * B) (hηB : η ≤ u * (B * B)) (ops : List (Op ℝ)) (hne : sinceClear ops ≠ [])
    (hB : ∀ x ∈ sinceClear ops, |x| ≤ B)
    (hT : 204 * ((sinceClear ops).length * ((sinceClear ops).length + N)) * u ≤ N) :
    ∃ (s : Window.Variance N (X F)) (v : ℝ), Window.Variance.run (finOps ops) = some s ∧ s.variance = X.fin v
      ∧ |v - Spec.variance (Spec.lastN N (sinceClear ops))|
        ≤ (230 * ((sinceClear ops).length * ((sinceClear ops).length + N)) / (Spec.lastN N (sinceClear ops)).length + 2) * (u * (B * B)) := by
  obtain ⟨m, S, h1, -, h2⟩ := Window.Variance.drift hF hE hN hp hfit hB0 hK hKf hBK hBBK hη hηB _ hB hT
  have hu := hE.u_nonneg
  have hBB := mul_nonneg hB0 hB0
  set xs := sinceClear ops with hxs
  set l := Spec.lastN N xs with hl
  have hpos : 0 < l.length := by
    rw [hl, Spec.length_lastN]
    have := List.length_pos_iff.2 hne
    omega
  have hlN : l.length ≤ N := by rw [hl, Spec.length_lastN]; omega
  have hn1 : (1 : ℝ) ≤ l.length := by exact_mod_cast hpos
  have hn0 : (0 : ℝ) < l.length := by linarith
  have hlB : ∀ y ∈ l, |y| ≤ B := fun y hy => hB y (List.mem_of_mem_drop hy)
  have hfn : F.fits (l.length : ℝ) := by
    refine hF.fits_abs _ _ ?_ hfit
    rw [Nat.abs_cast, Nat.abs_cast]; exact_mod_cast hlN
  have hV0 := Spec.central_two_nonneg l
  have hVC := Spec.central_two_le l hlB
  have hE1 : Window.varErr u B N xs.length ≤ N * (B * B) := by
    unfold Window.varErr
    have := mul_le_mul_of_nonneg_right hT hBB
    linarith
  have hlN' : (l.length : ℝ) * (B * B) ≤ N * (B * B) := mul_le_mul_of_nonneg_right (by exact_mod_cast hlN) hBB
  obtain ⟨v, hv1, hv2⟩ := variance_of_sum hF hE (S := S) (V := Spec.central 2 l) (d := l.length) (C := B * B)
    (e := Window.varErr u B N xs.length / l.length) hK hKf hn1 hV0 h2 (by rw [pow_two] at hVC; linarith)
    (by rw [div_mul_cancel₀ _ hn0.ne']) (by rw [pow_two] at hVC; linarith [mul_nonneg (Nat.cast_nonneg (α := ℝ) N) hBB]) hηB
  refine ⟨_, v, by rw [Window.Variance.run_eq hN, sinceClear_finOps, ← hxs, h1], ?_, hv2.trans ?_⟩
  · unfold Window.Variance.variance
    simp only [Window.Variance.size, Window.Mean.size, Window.Ring.size, List.length_map, gt_iff_lt, hpos, if_true,
      hF.ofNat_fin (hlN.trans hp) hfn]
    exact hv1
  · unfold Window.varErr
    have e1 : (9 : ℝ) / 8 * (204 * (xs.length * (xs.length + N)) * (u * (B * B)) / l.length) + 2 * (u * (B * B))
        = (459 / 2 * (xs.length * (xs.length + N)) / l.length + 2) * (u * (B * B)) := by ring
    rw [e1]
    refine mul_le_mul_of_nonneg_right ?_ (by positivity)
    have : (459 : ℝ) / 2 * (xs.length * (xs.length + N)) / l.length ≤ 230 * (xs.length * (xs.length + N)) / l.length := by
      gcongr; norm_num
    linarith

/-- C107 for the covariance: the error grows at most linearly with the number `t` of pairs, `(48 t + 29) u A B` for
coordinates of size at most `A` and `B`. -/
theorem C107_covariance_drift (hF : F.Binary p emin) (hE : F.Err u η) (hN : 1 ≤ N) (hp : N ≤ 2 ^ p) (hfit : F.fits (N : ℝ))
    {A B K : ℝ} (hA0 : 0 ≤ A) (hB0 : 0 ≤ B) (hK : IsRep p emin K) (hKf : F.fits K) (hAK : 3 * (N * A) ≤ K) (hBK : 3 * (N * B) ≤ K)
    (hABK : 8 * (N * (N * (A * B))) ≤ K) (hηA : η ≤ u * A) (hηB : η ≤ u * B) (hηAB : η ≤ u * (A * B))
    (ops : List (Op (ℝ × ℝ))) (hne : sinceClear ops ≠ []) (hA : ∀ q ∈ sinceClear ops, |q.1| ≤ A)
    (hB : ∀ q ∈ sinceClear ops, |q.2| ≤ B) (hT : 12 * (sinceClear ops).length * u ≤ 1) :
    ∃ (s : Window.Comoment N (X F)) (c : ℝ), Window.Comoment.run (finOps2 ops) = some s ∧ s.variance = X.fin c
      ∧ |c - Spec.covariance (Spec.lastN N (sinceClear ops))| ≤ (48 * (sinceClear ops).length + 29) * (u * (A * B)) := by
  have hAB := mul_nonneg hA0 hB0
  have hN1 : (1 : ℝ) ≤ N := by exact_mod_cast hN
  have hNAB : N * (A * B) ≤ N * (N * (A * B)) := le_mul_of_one_le_left (by positivity) hN1
  have hNN : 0 ≤ (N : ℝ) * (N * (A * B)) := by positivity
  obtain ⟨sx, sy, sxy, h1, hx, hy, hxy⟩ := Window.Comoment.drift hF hE hN hA0 hB0 hK hKf hAK hBK (by linarith) hηA hηB hηAB _ hA hB hT
  set ps := sinceClear ops with hps
  set l := Spec.lastN N ps with hl
  have hpos : 0 < l.length := by
    rw [hl, Spec.length_lastN]
    have := List.length_pos_iff.2 hne
    omega
  have hlN : l.length ≤ N := by rw [hl, Spec.length_lastN]; omega
  have hn1 : (1 : ℝ) ≤ l.length := by exact_mod_cast hpos
  have hlNr : (l.length : ℝ) ≤ N := by exact_mod_cast hlN
  have hlA : ∀ y ∈ l, |y.1| ≤ A := fun y hy => hA y (List.mem_of_mem_drop hy)
  have hlB : ∀ y ∈ l, |y.2| ≤ B := fun y hy => hB y (List.mem_of_mem_drop hy)
  have hfn : F.fits (l.length : ℝ) := by
    refine hF.fits_abs _ _ ?_ hfit
    rw [Nat.abs_cast, Nat.abs_cast]; exact hlNr
  have bx : |(Spec.xsOf l).sum| ≤ l.length * A := by
    have := Window.abs_sum_le (l := Spec.xsOf l) (B := A)
      (by intro y hy; obtain ⟨r, hr, rfl⟩ := List.mem_map.1 hy; exact hlA r hr)
    rwa [Spec.length_xsOf] at this
  have by' : |(Spec.ysOf l).sum| ≤ l.length * B := by
    have := Window.abs_sum_le (l := Spec.ysOf l) (B := B)
      (by intro y hy; obtain ⟨r, hr, rfl⟩ := List.mem_map.1 hy; exact hlB r hr)
    rwa [Spec.length_ysOf] at this
  have bxy : |(l.map fun q => q.1 * q.2).sum| ≤ l.length * (A * B) := by
    have := Window.abs_sum_le (l := l.map fun q => q.1 * q.2) (B := A * B) (by
      intro y hy; obtain ⟨r, hr, rfl⟩ := List.mem_map.1 hy
      rw [abs_mul]; exact mul_le_mul (hlA r hr) (hlB r hr) (abs_nonneg _) hA0)
    rwa [List.length_map] at this
  have bc := Spec.abs_cosum_le hA0 hB0 l hlA hlB
  rw [Spec.cosum_eq] at bc
  obtain ⟨c, c1, c2⟩ := Window.cov_of_sums hF hE hA0 hB0 hK hKf hn1 (Nat.cast_nonneg _)
    (by
      have h5 : (l.length : ℝ) * (l.length * (A * B)) ≤ N * (N * (A * B)) :=
        mul_le_mul hlNr (mul_le_mul_of_nonneg_right hlNr hAB) (by positivity) (by positivity)
      linarith) hηAB hT hx hy hxy bx by' bxy bc
  refine ⟨_, c, by rw [Window.Comoment.run_eq hN, sinceClear_finOps2, ← hps, h1], ?_, ?_⟩
  · unfold Window.Comoment.variance Window.Comoment.cosum
    simp only [Window.Comoment.size, Window.Ring.size, List.length_map, gt_iff_lt, hpos, if_true,
      hF.ofNat_fin (hlN.trans hp) hfn]
    exact c1
  · unfold Spec.covariance
    rw [Spec.cosum_eq]; exact c2

/-- `double`, window of 2, values 1, 2, 6, 4: the variance of 6 and 4 is 1. -/
example : ∃ (s : Window.Variance 2 (X binary64)) (v : ℝ), Window.Variance.run (finOps [.push 1, .push 2, .push 6, .push 4]) = some s
    ∧ s.variance = X.fin v ∧ |v - 1| ≤ 2762 * (2 ^ (-53 : Int) * 36) := by
  have hs : sinceClear ([.push 1, .push 2, .push 6, .push 4] : List (Op ℝ)) = [1, 2, 6, 4] := rfl
  have hη : (2 : ℝ) ^ (-1075 : Int) ≤ 2 ^ (-53 : Int) := zpow_le_zpow_right₀ (by norm_num) (by norm_num)
  have hu : (0 : ℝ) < 2 ^ (-53 : Int) := by positivity
  have hK := binary64_int (n := 2448) (by norm_num)
  push_cast at hK
  obtain ⟨s, v, h1, h2, h3⟩ := C107_variance_drift (N := 2) (B := 6) (K := 2448) binary64_binary binary64_err (by norm_num)
    (by norm_num) (binary64_int (n := 2) (by norm_num)).2 (by norm_num) hK.1 hK.2 (by norm_num) (by norm_num)
    (by linarith) (by linarith) [.push 1, .push 2, .push 6, .push 4] (by rw [hs]; simp)
    (by
      intro x hx
      rw [hs] at hx
      have : x = 1 ∨ x = 2 ∨ x = 6 ∨ x = 4 := by simpa using hx
      rcases this with rfl | rfl | rfl | rfl <;> norm_num)
    (by rw [hs]; norm_num)
  refine ⟨s, v, h1, h2, ?_⟩
  rw [hs] at h3
  have el : Spec.lastN 2 [(1 : ℝ), 2, 6, 4] = [6, 4] := by simp [Spec.lastN]
  rw [el] at h3
  have e : Spec.variance [6, 4] = 1 := by simp [Spec.variance, Spec.central, Spec.mean]; norm_num
  rw [e] at h3
  refine h3.trans (le_of_eq ?_)
  simp only [List.length_cons, List.length_nil]
  norm_num

/-- `double`, window of 2: the covariance of (6, 1) and (4, 3) is -1. -/
example : ∃ (s : Window.Comoment 2 (X binary64)) (c : ℝ),
    Window.Comoment.run (finOps2 [.push (1, 1), .push (2, 5), .push (6, 1), .push (4, 3)]) = some s
    ∧ s.variance = X.fin c ∧ |c - -1| ≤ 221 * (2 ^ (-53 : Int) * 30) := by
  have hs : sinceClear ([.push (1, 1), .push (2, 5), .push (6, 1), .push (4, 3)] : List (Op (ℝ × ℝ))) = [(1, 1), (2, 5), (6, 1), (4, 3)] := rfl
  have hη : (2 : ℝ) ^ (-1075 : Int) ≤ 2 ^ (-53 : Int) := zpow_le_zpow_right₀ (by norm_num) (by norm_num)
  have hu : (0 : ℝ) < 2 ^ (-53 : Int) := by positivity
  have hK := binary64_int (n := 960) (by norm_num)
  push_cast at hK
  obtain ⟨s, c, h1, h2, h3⟩ := C107_covariance_drift (N := 2) (A := 6) (B := 5) (K := 960) binary64_binary binary64_err (by norm_num)
    (by norm_num) (binary64_int (n := 2) (by norm_num)).2 (by norm_num) (by norm_num) hK.1 hK.2 (by norm_num) (by norm_num)
    (by norm_num) (by linarith) (by linarith) (by linarith) [.push (1, 1), .push (2, 5), .push (6, 1), .push (4, 3)] (by rw [hs]; simp)
    (by rw [hs]; simp; norm_num) (by rw [hs]; simp; norm_num) (by rw [hs]; norm_num)
  refine ⟨s, c, h1, h2, ?_⟩
  rw [hs] at h3
  have el : Spec.lastN 2 [((1 : ℝ), (1 : ℝ)), (2, 5), (6, 1), (4, 3)] = [(6, 1), (4, 3)] := by simp [Spec.lastN]
  rw [el] at h3
  have e : Spec.covariance [(6, 1), (4, 3)] = -1 := by
    simp [Spec.covariance, Spec.cosum, Spec.mean]; norm_num
  rw [e] at h3
  refine h3.trans (le_of_eq ?_)
  simp only [List.length_cons, List.length_nil]
  norm_num

end Verif.Props
