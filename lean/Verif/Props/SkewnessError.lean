import Verif.Proofs.KurtosisError
import Verif.Props.RegressionError
/-
C143: rounding errors of the cumulative skewness and kurtosis.
-/
namespace Verif.Props
open Scalar

variable {w : Nat} {F : Fmt} {p : Nat} {emin : Int} {u η : ℝ}

theorem shape_quotient {P P₀ z Q ε τ M : ℝ} (hQ : 0 < Q) (hP : |P - P₀| ≤ ε * Q) (hz : |z - Q| ≤ τ * Q) (hτ : τ ≤ 1 / 14) (hM : |P₀| ≤ M * Q) :
    0 < z ∧ |P / z - P₀ / Q| ≤ 14 / 13 * (ε + M * τ) := by
  have hz' := abs_le.1 hz
  have h1 : 13 / 14 * Q ≤ z := by
    have := mul_le_mul_of_nonneg_right hτ hQ.le
    linarith
  have hz0 : 0 < z := by linarith
  refine ⟨hz0, ?_⟩
  have e : P / z - P₀ / Q = ((P - P₀) * Q - P₀ * (z - Q)) / (z * Q) := by field_simp; ring
  have i1 : |(P - P₀) * Q - P₀ * (z - Q)| ≤ (ε + M * τ) * (Q * Q) := by
    refine (abs_sub _ _).trans ?_
    have j1 := abs_mul_le_of hP (show |Q| ≤ Q by rw [abs_of_pos hQ])
    have j2 := abs_mul_le_of hM hz
    linarith
  have i0 : 0 ≤ (ε + M * τ) * Q := by
    have := (abs_nonneg _).trans i1
    rw [← mul_assoc] at this
    exact nonneg_of_mul_nonneg_left this hQ
  rw [e, abs_div, abs_of_pos (mul_pos hz0 hQ), div_le_iff₀ (mul_pos hz0 hQ)]
  have i2 := mul_le_mul_of_nonneg_left h1 i0
  have i3 := mul_le_mul_of_nonneg_right i2 hQ.le
  have i4 := mul_le_mul_of_nonneg_right (mul_le_mul_of_nonneg_left h1 i0) (by norm_num : (0:ℝ) ≤ 14 / 13)
  calc _ ≤ _ := i1
    _ = (ε + M * τ) * Q * (13 / 14 * Q) * (14 / 13) := by ring
    _ ≤ (ε + M * τ) * Q * z * (14 / 13) := i4
    _ = _ := by ring

/-- C143, the sums: the sum of cubes of the skewness filter is off by at most `n (63 n + 1600) u B³`. -/
theorem C143_sum_skewness (hF : F.Binary p emin) (hE : F.Err u η) {B K : ℝ} (ops : List (Op ℝ)) (hd : F.Data p emin (sinceClear ops))
    (hB : ∀ x ∈ sinceClear ops, |x| ≤ B) (h : Cumulative.ShapeData F p emin u η w B K (sinceClear ops).length) :
    ∃ T : ℝ, (Cumulative.Skewness.run (finOps ops) : Cumulative.Skewness w (X F)).sumSkewness = X.fin T
      ∧ |T - Spec.central 3 (sinceClear ops)| ≤ (sinceClear ops).length * (63 * (sinceClear ops).length + 1600) * (u * B ^ 3) := by
  rw [Cumulative.Skewness.run_eq, sinceClear_finOps]
  exact Cumulative.Skewness.rounded_err hF hE _ hd hB h

/-- C143, the sums: the sum of fourth powers of the kurtosis filter is off by at most `n (647 n + 40000) u B⁴`. -/
theorem C143_sum_kurtosis (hF : F.Binary p emin) (hE : F.Err u η) {B K : ℝ} (ops : List (Op ℝ)) (hd : F.Data p emin (sinceClear ops))
    (hB : ∀ x ∈ sinceClear ops, |x| ≤ B) (h : Cumulative.KurtData F p emin u η w B K (sinceClear ops).length) :
    ∃ U : ℝ, (Cumulative.Kurtosis.run (finOps ops) : Cumulative.Kurtosis w (X F)).sumKurtosis = X.fin U
      ∧ |U - Spec.central 4 (sinceClear ops)| ≤ (sinceClear ops).length * (647 * (sinceClear ops).length + 40000) * (u * B ^ 4) := by
  rw [Cumulative.Kurtosis.run_eq, sinceClear_finOps]
  exact Cumulative.Kurtosis.rounded_err hF hE _ hd hB h

/-- The sum of squares relative to the exact sum. -/
theorem shape_variance (hF : F.Binary p emin) (hE : F.Err u η) {B K : ℝ} (xs : List ℝ) (hd : F.Data p emin xs)
    (hB : ∀ x ∈ xs, |x| ≤ B) (h : Cumulative.ShapeData F p emin u η w B K xs.length) (hne : xs ≠ []) :
    ∃ S : ℝ, ((xs.map X.fin).foldl Cumulative.Variance.push (Cumulative.Variance.init : Cumulative.Variance w (X F))).sumVariance = X.fin S
      ∧ |S - Spec.central 2 xs| ≤ xs.length * (6 * xs.length + 65) * (u * B ^ 2) := by
  have hu := hE.u_nonneg
  have hη := hE.eta_nonneg
  have h1 : (1 : ℝ) ≤ xs.length := by exact_mod_cast List.length_pos_iff.2 hne
  have h1η := mul_le_mul_of_nonneg_right h1 hη
  have u1 := h.under1; have u2 := h.under2; have o2 := h.over2; have sm := h.small
  have hBB : 0 ≤ xs.length * B ^ 2 := by positivity
  have : 0 ≤ (57 * xs.length + 1500) * u := by positivity
  exact Cumulative.Variance.rounded_err hF hE h.B_nonneg (by linarith) (by linarith) h.K_rep h.K_fits xs hd h.size h.digits
    (h.fits hF (by omega)) hB (by linarith) (by linarith)

/-- The condition number: the largest value over the standard deviation. -/
noncomputable def condition (B : ℝ) (xs : List ℝ) : ℝ := B / √(Spec.variance xs)

theorem condition_facts {B : ℝ} {xs : List ℝ} (hB0 : 0 ≤ B) (hB : ∀ x ∈ xs, |x| ≤ B) (hV : 0 < Spec.variance xs) :
    xs ≠ [] ∧ 0 < √(Spec.variance xs) ∧ Spec.central 2 xs = xs.length * √(Spec.variance xs) ^ 2 ∧ 1 ≤ condition B xs
      ∧ B = condition B xs * √(Spec.variance xs) := by
  have hne : xs ≠ [] := by
    rintro rfl; simp [Spec.variance] at hV
  have hn : (0 : ℝ) < xs.length := by exact_mod_cast List.length_pos_iff.2 hne
  have hσ := Real.sqrt_pos.2 hV
  have hσ2 : √(Spec.variance xs) ^ 2 = Spec.variance xs := Real.sq_sqrt hV.le
  refine ⟨hne, hσ, ?_, ?_, ?_⟩
  · rw [hσ2, Spec.variance]; field_simp
  · rw [condition, le_div_iff₀ hσ, one_mul]
    refine Real.sqrt_le_left hB0 |>.2 ?_
    have := Spec.central_two_le xs hB
    rw [Spec.variance, div_le_iff₀ hn]; linarith
  · rw [condition]; field_simp

/-- C143: the rounding error of the skewness of `n` values of size at most `B` is at most `(92 n + 2000) u κ³` where `κ` is `B`
over the standard deviation, provided the sum of cubes is beyond the cut-off.  The hypotheses on `η` exclude data that underflows,
those on `K` overflow. -/
theorem C143_skewness_error (hF : F.Binary p emin) (hE : F.Err u η) {B K : ℝ} (ops : List (Op ℝ)) (hd : F.Data p emin (sinceClear ops))
    (hB : ∀ x ∈ sinceClear ops, |x| ≤ B) (h : Cumulative.ShapeData F p emin u η w B K (sinceClear ops).length)
    (hV : 0 < Spec.variance (sinceClear ops))
    (hcond : (160 * (sinceClear ops).length + 3200) * (u * condition B (sinceClear ops) ^ 3) ≤ 1)
    (hη0 : η ≤ u) (hη1 : η ≤ u * √(Spec.variance (sinceClear ops))) (hη3 : η ≤ u * √(Spec.variance (sinceClear ops)) ^ 3)
    (hK3 : 8 * ((sinceClear ops).length * √((sinceClear ops).length : ℝ) * B ^ 3) ≤ K) (hKκ : 4 * condition B (sinceClear ops) ≤ K)
    (hcut : F.eps + (sinceClear ops).length * (63 * (sinceClear ops).length + 1600) * (u * B ^ 3) ≤ Spec.central 3 (sinceClear ops)) :
    ∃ s : ℝ, (Cumulative.Skewness.run (finOps ops) : Cumulative.Skewness w (X F)).skewness = X.fin s
      ∧ |s - Spec.skewness (sinceClear ops)| ≤ (92 * (sinceClear ops).length + 2000) * (u * condition B (sinceClear ops) ^ 3) := by
  rw [Cumulative.Skewness.run_eq, sinceClear_finOps]
  generalize hxs : sinceClear ops = xs at *
  obtain ⟨hne, hσ, hC, hκ1, hBκ⟩ := condition_facts h.B_nonneg hB hV
  obtain ⟨T, hT, hTe⟩ := Cumulative.Skewness.rounded_err (w := w) hF hE xs hd hB h
  obtain ⟨S, hS, hSe⟩ := shape_variance (w := w) hF hE xs hd hB h hne
  have hD := Spec.abs_central_three_le h.B_nonneg xs hB
  have hlen := List.length_pos_iff.2 hne
  have hn1 : (1 : ℝ) ≤ xs.length := by exact_mod_cast hlen
  have e0 : Spec.skewness xs = (√(xs.length : ℝ) * Spec.central 3 xs) / (xs.length * √(xs.length : ℝ) * √(Spec.variance xs) ^ 3) := by
    have : (0 : ℝ) < √(xs.length : ℝ) := Real.sqrt_pos.2 (by linarith)
    unfold Spec.skewness
    field_simp
  rw [e0]
  set κ := condition B xs
  set σ := √(Spec.variance xs)
  have hN : ((xs.map X.fin).foldl Cumulative.Skewness.push (Cumulative.Skewness.init : Cumulative.Skewness w (X F))).size
      = BitVec.ofNat w xs.length := by
    have h := Interim.size_foldB (σ := Cumulative.Skewness w (X F)) (xs.map X.fin)
    rw [List.length_map] at h
    exact h
  have hsup := Cumulative.Skewness.fold_super (w := w) (xs.map X.fin : List (X F))
  set st := (xs.map X.fin).foldl Cumulative.Skewness.push (Cumulative.Skewness.init : Cumulative.Skewness w (X F))
  have hfin : (ofSize (BitVec.ofNat w xs.length) : X F) = X.fin (xs.length : ℝ) := by
    rw [ofSize, toNat_ofNat_lt h.size, hF.ofNat_fin h.digits (h.fits hF (by omega))]
  unfold Cumulative.Skewness.skewness
  rw [hN, hfin, hsup, hS, hT, X.eps_eq, X.lt_fin]
  have hK_rep := h.K_rep
  have hK_fits := h.K_fits
  have over0 := h.over0
  have over2 := h.over2
  clear hsup hS hT hN st e0 hxs hB hd
  generalize Spec.central 3 xs = D at *
  rw [hC] at hSe hD
  clear hC hV hne hlen
  set n : ℝ := (xs.length : ℝ)
  set r := √n with hr
  have hr0 : 0 ≤ r := Real.sqrt_nonneg _
  have hrr : r * r = n := Real.mul_self_sqrt (by linarith)
  have hr1 : 1 ≤ r := by rw [hr]; exact Real.one_le_sqrt.2 hn1
  have hrn : r ≤ n := by rw [← hrr]; exact le_mul_of_one_le_left hr0 hr1
  have hu := hE.u_nonneg
  have hn0 : 0 ≤ n := by linarith
  have hκ0 : 0 ≤ κ := by linarith
  have hκ2 : κ ≤ κ ^ 3 := by
    have : κ * 1 ≤ κ * κ ^ 2 := mul_le_mul_of_nonneg_left (one_le_pow₀ hκ1) hκ0
    linarith
  have hκ23 : κ ^ 2 ≤ κ ^ 3 := pow_le_pow_right₀ hκ1 (by norm_num)
  have hκ13 : 1 ≤ κ ^ 3 := one_le_pow₀ hκ1
  -- the relative error of the sum of squares
  obtain ⟨ρ, hρ⟩ : ∃ ρ, ρ = (6 * n + 65) * (u * κ ^ 2) := ⟨_, rfl⟩
  have hρ0 : 0 ≤ ρ := by rw [hρ]; positivity
  have hρ26 : 26 * ρ ≤ 1 := by
    have i1 : ρ ≤ (6 * n + 65) * (u * κ ^ 3) := by
      rw [hρ]; exact mul_le_mul_of_nonneg_left (mul_le_mul_of_nonneg_left hκ23 hu) (by positivity)
    have i2 : 0 ≤ (4 * n + 1500) * (u * κ ^ 3) := by positivity
    have i3 : 0 ≤ u * κ ^ 3 := by positivity
    linarith
  have huρ : 65 * u ≤ ρ := by
    rw [hρ]
    have i1 : u * 1 ≤ u * κ ^ 2 := mul_le_mul_of_nonneg_left (one_le_pow₀ hκ1) hu
    have i2 : 0 ≤ n * (u * κ ^ 2) := by positivity
    linarith
  have hC0 : 0 < n * σ ^ 2 := by positivity
  have hSρ : |S - n * σ ^ 2| ≤ ρ * (n * σ ^ 2) := by
    refine hSe.trans (le_of_eq ?_)
    rw [hρ, hBκ]; ring
  have hsqC : √(n * σ ^ 2) = r * σ := by
    rw [Real.sqrt_mul hn0, Real.sqrt_sq hσ.le]
  have hCK : n * σ ^ 2 ≤ n * B ^ 2 := by
    rw [hBκ]
    have : n * σ ^ 2 * 1 ≤ n * σ ^ 2 * κ ^ 2 := mul_le_mul_of_nonneg_left (one_le_pow₀ hκ1) hC0.le
    linarith
  have hrσ0 : 0 < r * σ := by positivity
  have hrσK : r * σ * 2 ≤ K := by
    have i1 : (r * σ) ^ 2 = n * σ ^ 2 := by rw [← hrr]; ring
    have i2 : 2 * (r * σ) ≤ 1 + (r * σ) ^ 2 := by nlinarith [sq_nonneg (r * σ - 1)]
    linarith
  -- sqrt(sum of squares)
  obtain ⟨hS0, hsq⟩ := sqrt_error hC0 hρ0 (by linarith) (show |S - n * σ ^ 2| ≤ 27 / 25 * (ρ * (n * σ ^ 2)) by
    have := mul_nonneg hρ0 hC0.le; linarith)
  rw [hsqC] at hsq
  have hρrσ : ρ * (r * σ) ≤ 1 / 26 * (r * σ) := mul_le_mul_of_nonneg_right (by linarith) hrσ0.le
  have hurσ : 65 * (u * (r * σ)) ≤ ρ * (r * σ) := by have := mul_le_mul_of_nonneg_right huρ hrσ0.le; linarith
  have hyb : |√S| ≤ 21 / 20 * (r * σ) := by
    have := abs_le.1 hsq
    rw [abs_of_nonneg (Real.sqrt_nonneg _)]; linarith
  have hσr : σ ≤ r * σ := le_mul_of_one_le_left hσ.le hr1
  obtain ⟨ry, y1, -⟩ := hE.round_step hF (U := r * σ) hK_rep hK_fits hsq hyb
    (hη1.trans (mul_le_mul_of_nonneg_left hσr hu)) (by linarith) (by linarith)
  set y := F.rnd √S
  have y1' : |y - r * σ| ≤ 13 / 20 * ρ * (r * σ) := y1.trans (by have := mul_nonneg hρ0 hrσ0.le; linarith)
  -- times the sum of squares
  obtain ⟨hz0, hz⟩ := product_error hrσ0 hC0 y1' hSρ (by positivity) hρ0 (by linarith) (by linarith)
  obtain ⟨Q, hQ⟩ : ∃ Q, Q = n * r * σ ^ 3 := ⟨_, rfl⟩
  have hQ' : r * σ * (n * σ ^ 2) = Q := by rw [hQ]; ring
  have hQ0 : 0 < Q := by rw [hQ]; positivity
  rw [hQ'] at hz
  have hσQ : σ ^ 3 ≤ Q := by
    have i1 : 1 * σ ^ 3 ≤ (n * r) * σ ^ 3 := mul_le_mul_of_nonneg_right (one_le_mul_of_one_le_of_one_le hn1 hr1) (by positivity)
    rw [hQ]; linarith
  have hB3 : B ^ 3 = κ ^ 3 * σ ^ 3 := by rw [hBκ]; ring
  have hQB : n * r * B ^ 3 = κ ^ 3 * Q := by rw [hQ, hB3]; ring
  rw [hQB] at hK3
  have hQκ : Q ≤ κ ^ 3 * Q := le_mul_of_one_le_left hQ0.le hκ13
  have hρQ : ρ * Q ≤ 1 / 26 * Q := mul_le_mul_of_nonneg_right (by linarith) hQ0.le
  have huQ : 65 * (u * Q) ≤ ρ * Q := by have := mul_le_mul_of_nonneg_right huρ hQ0.le; linarith
  have hρQ0 := mul_nonneg hρ0 hQ0.le
  have hzb : |y * S| ≤ 11 / 10 * Q := by
    have := abs_le.1 hz
    rw [abs_of_pos hz0]; linarith
  obtain ⟨rz, z1, -⟩ := hE.round_step hF (U := Q) hK_rep hK_fits hz hzb
    (hη3.trans (mul_le_mul_of_nonneg_left hσQ hu)) (by linarith) (by linarith)
  set z := F.rnd (y * S)
  have z1' : |z - Q| ≤ (9 / 5 * ρ) * Q := z1.trans (by linarith)
  -- the numerator
  obtain ⟨rs, s1, s2⟩ := hE.round_step hF (U := 1) hK_rep hK_fits (show |r - r| ≤ 0 by simp) (show |r| ≤ r by rw [abs_of_nonneg hr0])
    (by linarith) hr1 (by linarith)
  set s := F.rnd r
  have s1' : |s - r| ≤ 2 * (u * r) := by
    have := mul_le_mul_of_nonneg_left hr1 hu
    linarith
  have hD' : |D| ≤ 2 * n * B ^ 3 := by
    refine hD.trans ?_
    have := mul_le_mul_of_nonneg_left hCK (show 0 ≤ 2 * B by have := h.B_nonneg; linarith)
    linarith
  have hTb : |T| ≤ 3 * n * B ^ 3 := by
    have e1 : T = (T - D) + D := by ring
    rw [e1]
    refine (abs_add_le _ _).trans ?_
    have hB30 : 0 ≤ B ^ 3 := pow_nonneg h.B_nonneg 3
    have i1 : (n * B ^ 3) * ((63 * n + 1600) * u) ≤ (n * B ^ 3) * 1 :=
      mul_le_mul_of_nonneg_left h.small (by positivity)
    linarith
  have p1 : |s * T - r * D| ≤ (63 * n + 1606) * (u * κ ^ 3) * Q := by
    have e1 : s * T - r * D = (s - r) * T + r * (T - D) := by ring
    rw [e1]
    refine (abs_add_le _ _).trans ?_
    have i1 := abs_mul_le_of s1' hTb
    have i2 := abs_mul_le_of (show |r| ≤ r by rw [abs_of_nonneg hr0]) hTe
    have i3 : 2 * (u * r) * (3 * n * B ^ 3) + r * (n * (63 * n + 1600) * (u * B ^ 3)) = (63 * n + 1606) * (u * (n * r * B ^ 3)) := by ring
    rw [hQB] at i3
    linarith
  have p2 : |s * T| ≤ 4 * (κ ^ 3 * Q) := by
    refine (abs_mul_le_of s2 hTb).trans ?_
    have i3 : 5 / 4 * r * (3 * n * B ^ 3) = 15 / 4 * (n * r * B ^ 3) := by ring
    rw [i3, hQB]
    linarith
  obtain ⟨rp, p3, -⟩ := hE.round_step hF (U := κ ^ 3 * Q) hK_rep hK_fits p1 p2
    (hη3.trans (mul_le_mul_of_nonneg_left (hσQ.trans hQκ) hu)) (by linarith) (by linarith)
  set P := F.rnd (s * T)
  have p3' : |P - r * D| ≤ ((63 * n + 1611) * (u * κ ^ 3)) * Q := p3.trans (by linarith)
  have hM : |r * D| ≤ 2 * κ * Q := by
    refine (abs_mul_le_of (show |r| ≤ r by rw [abs_of_nonneg hr0]) hD).trans (le_of_eq ?_)
    rw [hQ, hBκ]; ring
  obtain ⟨hzpos, hq⟩ := shape_quotient hQ0 p3' z1' (by linarith) hM
  rw [hQ] at hq
  -- the quotient
  have hκρ : κ * ρ = (6 * n + 65) * (u * κ ^ 3) := by rw [hρ]; ring
  have hx0 : 0 ≤ u * κ ^ 3 := by positivity
  have hnx0 : 0 ≤ n * (u * κ ^ 3) := by positivity
  have hq' : |P / z - r * D / (n * r * σ ^ 3)| ≤ (182 / 2 * n + 1 / 5 * n + 1988) * (u * κ ^ 3) := by
    refine hq.trans ?_
    have e1 : 2 * κ * (9 / 5 * ρ) = 18 / 5 * (κ * ρ) := by ring
    rw [e1, hκρ]
    linarith
  have hqb : |P / z| ≤ 3 * κ := by
    have e1 : P / z = (P / z - r * D / (n * r * σ ^ 3)) + r * D / (n * r * σ ^ 3) := by ring
    rw [e1]
    refine (abs_add_le _ _).trans ?_
    have i1 : |r * D / (n * r * σ ^ 3)| ≤ 2 * κ := by
      rw [← hQ, abs_div, abs_of_pos hQ0, div_le_iff₀ hQ0]; exact hM
    linarith
  obtain ⟨rq, q1, -⟩ := hE.round_step hF (U := 1) hK_rep hK_fits hq' hqb (by linarith) (by linarith) (by linarith)
  refine ⟨F.rnd (P / z), ?_, q1.trans ?_⟩
  · have hTe' := abs_le.1 hTe
    rw [decide_eq_false (by linarith), if_neg (by simp), X.sqrt_fin_of_nonneg (by linarith : (0:ℝ) ≤ n), rs, X.mul_fin, rp,
      X.sqrt_fin_of_nonneg hS0, ry, X.mul_fin, rz, X.div_fin_of_ne _ hzpos.ne', rq]
  · have i1 := mul_le_mul_of_nonneg_left hκ2 hu
    have i2 := mul_le_mul_of_nonneg_left hκ13 hu
    linarith

/-- C143: the rounding error of the kurtosis of `n` values of size at most `B` is at most `(753 n + 43700) u κ⁴`. -/
theorem C143_kurtosis_error (hF : F.Binary p emin) (hE : F.Err u η) {B K : ℝ} (ops : List (Op ℝ)) (hd : F.Data p emin (sinceClear ops))
    (hB : ∀ x ∈ sinceClear ops, |x| ≤ B) (h : Cumulative.KurtData F p emin u η w B K (sinceClear ops).length)
    (hV : 0 < Spec.variance (sinceClear ops))
    (hcond : (1300 * (sinceClear ops).length + 82000) * (u * condition B (sinceClear ops) ^ 4) ≤ 1)
    (hη4 : η ≤ u * √(Spec.variance (sinceClear ops)) ^ 4)
    (hK4 : 8 * (((sinceClear ops).length : ℝ) ^ 2 * B ^ 4) ≤ K) (hKκ : 5 * condition B (sinceClear ops) ^ 2 ≤ K)
    (hcut : F.eps + (sinceClear ops).length * (647 * (sinceClear ops).length + 40000) * (u * B ^ 4) ≤ Spec.central 4 (sinceClear ops)) :
    ∃ s : ℝ, (Cumulative.Kurtosis.run (finOps ops) : Cumulative.Kurtosis w (X F)).kurtosis = X.fin s
      ∧ |s - Spec.kurtosis (sinceClear ops)| ≤ (753 * (sinceClear ops).length + 43700) * (u * condition B (sinceClear ops) ^ 4) := by
  rw [Cumulative.Kurtosis.run_eq, sinceClear_finOps]
  generalize hxs : sinceClear ops = xs at *
  have hB0 := h.shape.B_nonneg
  obtain ⟨hne, hσ, hC, hκ1, hBκ⟩ := condition_facts hB0 hB hV
  obtain ⟨U, hU, hUe⟩ := Cumulative.Kurtosis.rounded_err (w := w) hF hE xs hd hB h
  obtain ⟨S, hS, hSe⟩ := shape_variance (w := w) hF hE xs hd hB h.shape hne
  have hM4 : |Spec.central 4 xs| ≤ 4 * B ^ 2 * Spec.central 2 xs := by
    rw [abs_of_nonneg (show 0 ≤ Spec.central 4 xs from Spec.about_even_nonneg 4 (by decide) _ _)]
    exact Spec.central_four_le hB0 xs hB
  have hlen := List.length_pos_iff.2 hne
  have hn1 : (1 : ℝ) ≤ xs.length := by exact_mod_cast hlen
  have e0 : Spec.kurtosis xs = (xs.length * Spec.central 4 xs) / ((xs.length : ℝ) ^ 2 * √(Spec.variance xs) ^ 4) := by
    have e1 : √(Spec.variance xs) ^ 4 = Spec.variance xs ^ 2 := by
      rw [show √(Spec.variance xs) ^ 4 = (√(Spec.variance xs) ^ 2) ^ 2 by ring, Real.sq_sqrt hV.le]
    unfold Spec.kurtosis
    rw [e1]
    field_simp
  rw [e0]
  set κ := condition B xs
  set σ := √(Spec.variance xs)
  have hN : ((xs.map X.fin).foldl Cumulative.Kurtosis.push (Cumulative.Kurtosis.init : Cumulative.Kurtosis w (X F))).size
      = BitVec.ofNat w xs.length := by
    have h := Interim.size_foldB (σ := Cumulative.Kurtosis w (X F)) (xs.map X.fin)
    rw [List.length_map] at h
    exact h
  have hsup := Cumulative.Kurtosis.fold_super (w := w) (xs.map X.fin : List (X F))
  have hsup' := Cumulative.Skewness.fold_super (w := w) (xs.map X.fin : List (X F))
  set st := (xs.map X.fin).foldl Cumulative.Kurtosis.push (Cumulative.Kurtosis.init : Cumulative.Kurtosis w (X F))
  have hfin : (ofSize (BitVec.ofNat w xs.length) : X F) = X.fin (xs.length : ℝ) := by
    rw [ofSize, toNat_ofNat_lt h.shape.size, hF.ofNat_fin h.shape.digits (h.shape.fits hF (by omega))]
  unfold Cumulative.Kurtosis.kurtosis
  rw [hN, hfin, hsup, hsup', hS, hU, X.eps_eq, X.lt_fin]
  have hK_rep := h.shape.K_rep
  have hK_fits := h.shape.K_fits
  have hη0 := h.under0
  have hsmall := h.small
  clear hsup hsup' hS hU hN st e0 hxs hB hd
  generalize Spec.central 4 xs = D at *
  rw [hC] at hSe hM4
  clear hC hV hne hlen h
  set n : ℝ := (xs.length : ℝ)
  have hu := hE.u_nonneg
  have hn0 : 0 ≤ n := by linarith
  have hκ0 : 0 ≤ κ := by linarith
  have hκ24 : κ ^ 2 ≤ κ ^ 4 := pow_le_pow_right₀ hκ1 (by norm_num)
  have hκ14 : 1 ≤ κ ^ 4 := one_le_pow₀ hκ1
  have hκ12 : 1 ≤ κ ^ 2 := one_le_pow₀ hκ1
  have hx0 : 0 ≤ u * κ ^ 4 := by positivity
  have hnx0 : 0 ≤ n * (u * κ ^ 4) := by positivity
  obtain ⟨ρ, hρ⟩ : ∃ ρ, ρ = (6 * n + 65) * (u * κ ^ 2) := ⟨_, rfl⟩
  have hρ0 : 0 ≤ ρ := by rw [hρ]; positivity
  have hρ26 : 200 * ρ ≤ 1 := by
    have i1 : ρ ≤ (6 * n + 65) * (u * κ ^ 4) := by
      rw [hρ]; exact mul_le_mul_of_nonneg_left (mul_le_mul_of_nonneg_left hκ24 hu) (by positivity)
    linarith
  have huρ : 65 * u ≤ ρ := by
    rw [hρ]
    have i1 : u * 1 ≤ u * κ ^ 2 := mul_le_mul_of_nonneg_left hκ12 hu
    have i2 : 0 ≤ n * (u * κ ^ 2) := by positivity
    linarith
  have hC0 : 0 < n * σ ^ 2 := by positivity
  have hSρ : |S - n * σ ^ 2| ≤ ρ * (n * σ ^ 2) := by
    refine hSe.trans (le_of_eq ?_)
    rw [hρ, hBκ]; ring
  -- the square of the sum of squares
  obtain ⟨hz0, hz⟩ := product_error hC0 hC0 hSρ hSρ hρ0 hρ0 (by linarith) (by linarith)
  obtain ⟨Q, hQ⟩ : ∃ Q, Q = n ^ 2 * σ ^ 4 := ⟨_, rfl⟩
  have hQ' : n * σ ^ 2 * (n * σ ^ 2) = Q := by rw [hQ]; ring
  have hQ0 : 0 < Q := by rw [hQ]; positivity
  rw [hQ'] at hz
  have hσQ : σ ^ 4 ≤ Q := by
    rw [hQ]; exact le_mul_of_one_le_left (by positivity) (one_le_pow₀ hn1)
  have hQB : n ^ 2 * B ^ 4 = κ ^ 4 * Q := by rw [hQ, hBκ]; ring
  rw [hQB] at hK4
  have hQκ : Q ≤ κ ^ 4 * Q := le_mul_of_one_le_left hQ0.le hκ14
  have hρQ : ρ * Q ≤ 1 / 200 * Q := mul_le_mul_of_nonneg_right (by linarith) hQ0.le
  have huQ : 65 * (u * Q) ≤ ρ * Q := by have := mul_le_mul_of_nonneg_right huρ hQ0.le; linarith
  have hρQ0 := mul_nonneg hρ0 hQ0.le
  have hzb : |S * S| ≤ 11 / 10 * Q := by
    have := abs_le.1 hz
    rw [abs_of_pos hz0]; linarith
  obtain ⟨rz, z1, -⟩ := hE.round_step hF (U := Q) hK_rep hK_fits hz hzb
    (hη4.trans (mul_le_mul_of_nonneg_left hσQ hu)) (by linarith) (by linarith)
  set z := F.rnd (S * S)
  have z1' : |z - Q| ≤ (54 / 25 * ρ) * Q := z1.trans (by linarith)
  -- the numerator
  have hD' : |D| ≤ 4 * n * B ^ 4 := by
    refine hM4.trans ?_
    have i1 : n * σ ^ 2 ≤ n * B ^ 2 := by
      rw [hBκ]
      have : n * σ ^ 2 * 1 ≤ n * σ ^ 2 * κ ^ 2 := mul_le_mul_of_nonneg_left hκ12 hC0.le
      linarith
    have := mul_le_mul_of_nonneg_left i1 (show 0 ≤ 4 * B ^ 2 by positivity)
    linarith
  have hUb : |U| ≤ 5 * n * B ^ 4 := by
    have e1 : U = (U - D) + D := by ring
    rw [e1]
    refine (abs_add_le _ _).trans ?_
    have i1 : (n * B ^ 4) * ((647 * n + 40000) * u) ≤ (n * B ^ 4) * 1 :=
      mul_le_mul_of_nonneg_left hsmall (by positivity)
    linarith
  have p1 : |n * U - n * D| ≤ (647 * n + 40000) * (u * κ ^ 4) * Q := by
    rw [← mul_sub]
    have i2 := abs_mul_le_of (show |n| ≤ n by rw [abs_of_nonneg hn0]) hUe
    have i3 : n * (n * (647 * n + 40000) * (u * B ^ 4)) = (647 * n + 40000) * (u * (n ^ 2 * B ^ 4)) := by ring
    rw [hQB] at i3
    linarith
  have p2 : |n * U| ≤ 5 * (κ ^ 4 * Q) := by
    refine (abs_mul_le_of (show |n| ≤ n by rw [abs_of_nonneg hn0]) hUb).trans ?_
    have i3 : n * (5 * n * B ^ 4) = 5 * (n ^ 2 * B ^ 4) := by ring
    rw [i3, hQB]
  obtain ⟨rp, p3, -⟩ := hE.round_step hF (U := κ ^ 4 * Q) hK_rep hK_fits p1 p2
    (hη4.trans (mul_le_mul_of_nonneg_left (hσQ.trans hQκ) hu)) (by linarith) (by linarith)
  set P := F.rnd (n * U)
  have p3' : |P - n * D| ≤ ((647 * n + 40006) * (u * κ ^ 4)) * Q := p3.trans (by linarith)
  have hM : |n * D| ≤ 4 * κ ^ 2 * Q := by
    refine (abs_mul_le_of (show |n| ≤ n by rw [abs_of_nonneg hn0]) hM4).trans (le_of_eq ?_)
    rw [hQ, hBκ]; ring
  obtain ⟨hzpos, hq⟩ := shape_quotient hQ0 p3' z1' (by linarith) hM
  rw [hQ] at hq
  -- the quotient
  have hκρ : κ ^ 2 * ρ = (6 * n + 65) * (u * κ ^ 4) := by rw [hρ]; ring
  have hq' : |P / z - n * D / (n ^ 2 * σ ^ 4)| ≤ (753 * n + 43692) * (u * κ ^ 4) := by
    refine hq.trans ?_
    have e1 : 4 * κ ^ 2 * (54 / 25 * ρ) = 216 / 25 * (κ ^ 2 * ρ) := by ring
    rw [e1, hκρ]
    linarith
  have hqb : |P / z| ≤ 5 * κ ^ 2 := by
    have e1 : P / z = (P / z - n * D / (n ^ 2 * σ ^ 4)) + n * D / (n ^ 2 * σ ^ 4) := by ring
    rw [e1]
    refine (abs_add_le _ _).trans ?_
    have i1 : |n * D / (n ^ 2 * σ ^ 4)| ≤ 4 * κ ^ 2 := by
      rw [← hQ, abs_div, abs_of_pos hQ0, div_le_iff₀ hQ0]; exact hM
    linarith
  obtain ⟨rq, q1, -⟩ := hE.round_step hF (U := 1) hK_rep hK_fits hq' hqb (by linarith) (by linarith) (by linarith)
  refine ⟨F.rnd (P / z), ?_, q1.trans ?_⟩
  · have hUe' := abs_le.1 hUe
    rw [decide_eq_false (by linarith), if_neg (by simp), X.mul_fin, rp, X.mul_fin, rz, X.div_fin_of_ne _ hzpos.ne', rq]
  · have i1 := mul_le_mul_of_nonneg_left hκ24 hu
    have i2 := mul_le_mul_of_nonneg_left hκ14 hu
    linarith

theorem example_shape : Cumulative.ShapeData binary64 53 (-1074) (2 ^ (-53 : Int)) (2 ^ (-1075 : Int)) 64 6 (2 ^ 40) 3 := by
  have hη : (2 : ℝ) ^ (-1075 : Int) ≤ 2 ^ (-53 : Int) := zpow_le_zpow_right₀ (by norm_num) (by norm_num)
  have hu : (0 : ℝ) < 2 ^ (-53 : Int) := zpow_pos (by norm_num) _
  have hK := binary64_int (n := 2 ^ 40) (by norm_num)
  rw [show (((2 ^ 40 : Int)) : ℝ) = 2 ^ 40 by norm_num] at hK
  refine ⟨by norm_num, hK.1, hK.2, by norm_num, by norm_num, ?_, by push_cast; linarith, by push_cast; linarith, by push_cast; linarith,
    by norm_num, by norm_num, by norm_num, by norm_num, by norm_num⟩
  have hr : IsRep 53 (-1074) ((2 : ℝ) ^ (64 : Int)) := by
    have := isRep_mul (p := 53) (emin := -1074) (m := 1) (e := 64) (by norm_num) (by norm_num) (by norm_num)
    simpa using this
  have hf : binary64.fits ((2 : ℝ) ^ (64 : Int)) := by
    rw [binary64_fits, abs_of_pos (zpow_pos (by norm_num) _)]
    exact zpow_lt_zpow_right₀ (by norm_num) (by norm_num)
  have h2 := (binary64_binary.round_le hr hf (r := ((2 ^ 64 - 1 : Nat) : ℝ)) (by norm_num)).2
  exact binary64_binary.fits_abs _ _ (h2.trans (le_abs_self _)) hf

/-- The `double` skewness and kurtosis of 1, 2, 6. -/
example :
    (∃ s : ℝ, (Cumulative.Skewness.run (finOps [.push 100, .clear, .push 1, .push 2, .push 6]) : Cumulative.Skewness 64 (X binary64)).skewness
        = X.fin s ∧ |s - Spec.skewness [1, 2, 6]| ≤ 2276 * (2 ^ (-53 : Int) * 27))
    ∧ ∃ s : ℝ, (Cumulative.Kurtosis.run (finOps [.push 100, .clear, .push 1, .push 2, .push 6]) : Cumulative.Kurtosis 64 (X binary64)).kurtosis
        = X.fin s ∧ |s - Spec.kurtosis [1, 2, 6]| ≤ 45959 * (2 ^ (-53 : Int) * 81) := by
  have hs : sinceClear ([.push 100, .clear, .push 1, .push 2, .push 6] : List (Op ℝ)) = [1, 2, 6] := rfl
  have hη : (2 : ℝ) ^ (-1075 : Int) ≤ 2 ^ (-53 : Int) := zpow_le_zpow_right₀ (by norm_num) (by norm_num)
  have hu : (0 : ℝ) < 2 ^ (-53 : Int) := zpow_pos (by norm_num) _
  have hd : binary64.Data 53 (-1074) [1, 2, 6] := by have := binary64_data [1, 2, 6] (by simp); simpa using this
  have hB : ∀ x ∈ ([1, 2, 6] : List ℝ), |x| ≤ 6 := by
    intro x hx
    simp only [List.mem_cons, List.not_mem_nil, or_false] at hx
    rcases hx with rfl | rfl | rfl <;> norm_num
  have hm : Spec.mean [1, 2, 6] = 3 := by norm_num [Spec.mean]
  have hvar : Spec.variance [1, 2, 6] = 14 / 3 := by
    simp [Spec.variance, Spec.central, Spec.mean]; norm_num
  have h3 : Spec.central 3 [1, 2, 6] = 18 := by rw [Spec.central, hm]; norm_num
  have h4 : Spec.central 4 [1, 2, 6] = 98 := by rw [Spec.central, hm]; norm_num
  have hσ : 2 ≤ √(Spec.variance [1, 2, 6]) := by rw [hvar]; exact Real.le_sqrt_of_sq_le (by norm_num)
  have hκ : condition 6 [1, 2, 6] ≤ 3 := by
    rw [condition, div_le_iff₀ (by linarith)]; linarith
  have hκ0 : 0 ≤ condition 6 [1, 2, 6] := by rw [condition]; positivity
  have hκ3 : condition 6 [1, 2, 6] ^ 3 ≤ 27 := by have := pow_le_pow_left₀ hκ0 hκ 3; linarith
  have hκ4 : condition 6 [1, 2, 6] ^ 4 ≤ 81 := by have := pow_le_pow_left₀ hκ0 hκ 4; linarith
  have hκ2 : condition 6 [1, 2, 6] ^ 2 ≤ 9 := by have := pow_le_pow_left₀ hκ0 hκ 2; linarith
  have c3 := mul_le_mul_of_nonneg_left hκ3 hu.le
  have c4 := mul_le_mul_of_nonneg_left hκ4 hu.le
  have hε : binary64.eps ≤ 1 := by
    show (2 : ℝ) ^ (-52 : Int) ≤ 1
    norm_num
  have p3 : 1 ≤ √(Spec.variance [1, 2, 6]) ^ 3 := one_le_pow₀ (by linarith)
  have p4 : 1 ≤ √(Spec.variance [1, 2, 6]) ^ 4 := one_le_pow₀ (by linarith)
  have q1 := mul_le_mul_of_nonneg_left hσ hu.le
  have q3 := mul_le_mul_of_nonneg_left p3 hu.le
  have q4 := mul_le_mul_of_nonneg_left p4 hu.le
  have hr3 : √((3 : Nat) : ℝ) ≤ 2 := by
    rw [Real.sqrt_le_left (by norm_num)]; norm_num
  have hu' : (2 : ℝ) ^ (-53 : Int) ≤ 1 / 2 ^ 50 := by norm_num
  constructor
  · obtain ⟨s, h1, h2⟩ := C143_skewness_error (w := 64) binary64_binary binary64_err (B := 6) (K := 2 ^ 40)
      [.push 100, .clear, .push 1, .push 2, .push 6] (by rw [hs]; exact hd) (by rw [hs]; exact hB) (by rw [hs]; exact example_shape)
      (by rw [hs, hvar]; norm_num) (by rw [hs]; simp only [List.length_cons, List.length_nil]; push_cast; generalize (2 : ℝ) ^ (-53 : Int) = U at *; linarith)
      hη (by rw [hs]; generalize (2 : ℝ) ^ (-53 : Int) = U at *; linarith) (by rw [hs]; generalize (2 : ℝ) ^ (-53 : Int) = U at *; linarith)
      (by rw [hs]; simp only [List.length_cons, List.length_nil]; push_cast at hr3 ⊢; norm_num at hr3 ⊢; linarith)
      (by rw [hs]; linarith)
      (by rw [hs, h3]; simp only [List.length_cons, List.length_nil]; push_cast; generalize (2 : ℝ) ^ (-53 : Int) = U at *; linarith)
    refine ⟨s, h1, ?_⟩
    rw [hs] at h2
    refine h2.trans ?_
    simp only [List.length_cons, List.length_nil]
    push_cast
    generalize (2 : ℝ) ^ (-53 : Int) = U at *
    linarith
  · obtain ⟨s, h1, h2⟩ := C143_kurtosis_error (w := 64) binary64_binary binary64_err (B := 6) (K := 2 ^ 40)
      [.push 100, .clear, .push 1, .push 2, .push 6] (by rw [hs]; exact hd) (by rw [hs]; exact hB)
      (by rw [hs]; exact ⟨example_shape, by norm_num, hη, by simp only [List.length_cons, List.length_nil]; push_cast; generalize (2 : ℝ) ^ (-53 : Int) = U at *; linarith,
        by norm_num, by norm_num, by norm_num, by norm_num, by norm_num⟩)
      (by rw [hs, hvar]; norm_num) (by rw [hs]; simp only [List.length_cons, List.length_nil]; push_cast; generalize (2 : ℝ) ^ (-53 : Int) = U at *; linarith)
      (by rw [hs]; generalize (2 : ℝ) ^ (-53 : Int) = U at *; linarith) (by rw [hs]; norm_num) (by rw [hs]; linarith)
      (by rw [hs, h4]; simp only [List.length_cons, List.length_nil]; push_cast; generalize (2 : ℝ) ^ (-53 : Int) = U at *; linarith)
    refine ⟨s, h1, ?_⟩
    rw [hs] at h2
    refine h2.trans ?_
    simp only [List.length_cons, List.length_nil]
    push_cast
    generalize (2 : ℝ) ^ (-53 : Int) = U at *
    linarith

end Verif.Props
