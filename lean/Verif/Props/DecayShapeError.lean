import Verif.Proofs.DecayShapeError
import Verif.Props.DecayVarianceError
/-
C152: rounding error of the decay skewness and kurtosis.
-/
namespace Verif.Props
open Scalar Verif.Decay

variable {F : Fmt} {p : Nat} {emin : Int} {u η : ℝ}

theorem decay_skewness_run {α : Type} [Scalar α] (f g h : α) (ops : List (Op α)) (hc : pushCount ops = (sinceClear ops).length) :
    Skewness.run f g h ops = (sinceClear ops).foldl Skewness.push (Skewness.init f g h) := by
  induction ops using List.reverseRecOn with
  | nil => rfl
  | append_singleton ops op ih =>
    unfold Skewness.run at ih ⊢
    rw [runOps_append]
    cases op with
    | push x =>
      rw [sinceClear_append_push, pushCount_append, List.length_append] at hc
      simp only [pushCount, List.length_singleton] at hc
      rw [ih (by omega), sinceClear_append_push, List.foldl_append]
      rfl
    | clear =>
      rw [sinceClear_append_clear, pushCount_append] at hc
      simp only [pushCount, List.length_nil] at hc
      have hs : sinceClear ops = [] := List.length_eq_zero_iff.1 (by have := length_sinceClear_le ops; omega)
      rw [ih (by rw [hs]; simpa using hc), hs, sinceClear_append_clear]
      rfl

theorem decay_kurtosis_run {α : Type} [Scalar α] (f g h i : α) (ops : List (Op α)) (hc : pushCount ops = (sinceClear ops).length) :
    Kurtosis.run f g h i ops = (sinceClear ops).foldl Kurtosis.push (Kurtosis.init f g h i) := by
  induction ops using List.reverseRecOn with
  | nil => rfl
  | append_singleton ops op ih =>
    unfold Kurtosis.run at ih ⊢
    rw [runOps_append]
    cases op with
    | push x =>
      rw [sinceClear_append_push, pushCount_append, List.length_append] at hc
      simp only [pushCount, List.length_singleton] at hc
      rw [ih (by omega), sinceClear_append_push, List.foldl_append]
      rfl
    | clear =>
      rw [sinceClear_append_clear, pushCount_append] at hc
      simp only [pushCount, List.length_nil] at hc
      have hs : sinceClear ops = [] := List.length_eq_zero_iff.1 (by have := length_sinceClear_le ops; omega)
      rw [ih (by rw [hs]; simpa using hc), hs, sinceClear_append_clear]
      rfl

theorem abs_ewDevs_le {f B : ℝ} (hf0 : 0 < f) (hf1 : f ≤ 1) (hB0 : 0 ≤ B) {xs : List ℝ} (hB : ∀ x ∈ xs, |x| ≤ B) :
    ∀ d ∈ Spec.ewDevs f xs, |d| ≤ 2 * B := by
  intro d hd
  obtain ⟨k, hk, rfl⟩ := List.mem_map.1 hd
  rw [List.mem_range] at hk
  have a1 : |Spec.ewMean f (xs.take (k + 1))| ≤ B :=
    abs_ewMean_le hf0 hf1 hB0 fun y hy => hB y (List.mem_of_mem_take hy)
  have a2 : |xs.getD k 0| ≤ B := by
    rw [List.getD_eq_getElem _ _ hk]; exact hB _ (List.getElem_mem hk)
  exact (abs_sub _ _).trans (by linarith)

theorem abs_ewMean_pow_le {f h B : ℝ} (hf0 : 0 < f) (hf1 : f ≤ 1) (hh0 : 0 < h) (hh1 : h ≤ 1) (hB0 : 0 ≤ B) {xs : List ℝ}
    (hB : ∀ x ∈ xs, |x| ≤ B) (k : Nat) : |Spec.ewMean h ((Spec.ewDevs f xs).map (· ^ k))| ≤ (2 * B) ^ k := by
  refine abs_ewMean_le hh0 hh1 (by positivity) fun y hy => ?_
  obtain ⟨d, hd, rfl⟩ := List.mem_map.1 hy
  rw [abs_pow]
  exact pow_le_pow_left₀ (abs_nonneg _) (abs_ewDevs_le hf0 hf1 hB0 hB d hd) k

/-- What C108 asks of the format, the factors of mean and variance, and the bound `B` of the data. -/
structure DecayRange (F : Fmt) (p : Nat) (emin : Int) (u η f g B K : ℝ) : Prop where
  f_pos : 0 < f
  f_le : f ≤ 1
  g_pos : 0 < g
  g_le : g ≤ 1
  f_rep : IsRep p emin f
  g_rep : IsRep p emin g
  B_nonneg : 0 ≤ B
  K_rep : IsRep p emin K
  K_fits : F.fits K
  K1 : 8 * B ≤ K
  K2 : 112 * (B * B) ≤ K
  eta1 : η ≤ u * B
  eta2 : η ≤ u * (B * B)
  mean_K : B + (sumErr u η f B + B * sumErr u η f 1) / f ≤ K
  sum_le : sumErr u η f B ≤ B
  mean_le : meanErr u η f B ≤ B
  squares_le : sumErr u η g (14 * (B * B)) ≤ 14 * (B * B)
  variance_K : 4 * (B * B) + (sumErr u η g (14 * (B * B)) + (6 * (B * meanErr u η f B) + 36 * (u * (B * B)))
    + 4 * (B * B) * sumErr u η g 1) / g ≤ K

/-- The error of the sum of cubes. -/
noncomputable def cubesErr (u η f h B : ℝ) : ℝ :=
  sumErr u η h (62 * B ^ 3) + (25 * (B ^ 2 * meanErr u η f B) + 192 * (u * B ^ 3))

/-- The error of the sum of fourth powers. -/
noncomputable def quarticsErr (u η f i B : ℝ) : ℝ :=
  sumErr u η i (272 * B ^ 4) + (96 * (B ^ 3 * meanErr u η f B) + 922 * (u * B ^ 4))

/-- The error of a quotient: `e` is the error of the sum, `M` bounds its mean, `Z` is the power of the standard deviation, `ρ`
the relative error of the variance. -/
noncomputable def shapeErr (u η h e M Z ρ : ℝ) : ℝ :=
  2 * (e / (h * Z)) + (2 * (3 * ρ + 6 * u) + 4 * u + 2 * (sumErr u η h 1 / h)) * (M / Z) + 3 * (η / h)

/-- C152 for `skewness()`: the rounding error does not grow with the number of values.  The bound depends on the factors, the
format, the bound `B` of the data, the standard deviation and the relative error `ρ` of the variance. -/
theorem C152_decay_skewness_error (hF : F.Binary p emin) (hE : F.Err u η) {f g h B K : ℝ} (hR : DecayRange F p emin u η f g B K)
    (hh0 : 0 < h) (hh1 : h ≤ 1) (hhr : IsRep p emin h) (hB3K : 496 * B ^ 3 ≤ K) (hη3 : η ≤ u * B ^ 3)
    (hc3 : sumErr u η h (62 * B ^ 3) ≤ 62 * B ^ 3) (hn : 8 * sumErr u η h 1 ≤ h)
    (ops : List (Op ℝ)) (hops : pushCount ops = (sinceClear ops).length) (hB : ∀ x ∈ sinceClear ops, |x| ≤ B)
    {V ρ : ℝ} (hV : V = Spec_decayVariance f g (sinceClear ops)) (hε0 : 0 ≤ F.eps) (hε : F.eps < V - decayVarErr u η f g B)
    (hρ : decayVarErr u η f g B ≤ ρ * V) (hρ' : 12 * ρ + 24 * u ≤ 1) (hη1 : η ≤ u * √V) (hησ : η ≤ u * √V ^ 3)
    (hK1 : 2 * √V ≤ K) (hK3 : 2 * √V ^ 3 ≤ K)
    (hM : 3 * ((2 * B) ^ 3 / √V ^ 3) + 2 * (cubesErr u η f h B / (h * √V ^ 3)) + η / h ≤ K) :
    ∃ r : ℝ, (Skewness.run (X.fin f) (X.fin g) (X.fin h) (finOps ops) : Skewness (X F)).skewness = X.fin r
      ∧ |r - Spec.ewMean h ((Spec.ewDevs f (sinceClear ops)).map (· ^ 3)) / √V ^ 3|
        ≤ shapeErr u η h (cubesErr u η f h B) ((2 * B) ^ 3) (√V ^ 3) ρ := by
  have hu := hE.u_nonneg
  have hBB := mul_nonneg hR.B_nonneg hR.B_nonneg
  have hB0 := hR.B_nonneg
  have hB3 : 0 ≤ B ^ 3 := by positivity
  obtain ⟨v, hv1, hv2⟩ := C108_decay_variance_error (F := F) hF hE hR.f_pos hR.f_le hR.g_pos hR.g_le hR.f_rep hR.g_rep hR.B_nonneg
    hR.K_rep hR.K_fits hR.K1 hR.K2 hR.eta1 hR.eta2 hR.mean_K hR.sum_le hR.mean_le hR.squares_le hR.variance_K ops hops hB
  rw [← hV] at hv2
  have hdv : 0 ≤ decayVarErr u η f g B := (abs_nonneg _).trans hv2
  have hV0 : 0 < V := by linarith
  have hpc : pushCount (finOps ops : List (Op (X F))) = (sinceClear (finOps ops : List (Op (X F)))).length := by
    rw [sinceClear_finOps, List.length_map, ← hops]; exact pushCount_map _ ops
  rw [decay_variance_run _ _ _ hpc, sinceClear_finOps] at hv1
  rw [decay_skewness_run _ _ _ _ hpc, sinceClear_finOps]
  obtain ⟨rs, h1, h2, h3, h4, -⟩ := Skewness.fold_cubes (F := F) (g := g) hF hE hR.f_pos hR.f_le hh0 hh1 hR.f_rep hR.B_nonneg hR.K_rep
    hR.K_fits hR.K1 (by linarith [hR.K2]) (by linarith) hR.mean_K hR.sum_le hR.mean_le hR.eta1 hR.eta2 hη3 _ hB
  rw [h4]
  obtain ⟨n, hN⟩ := Mean.fold_norm (u := u) (η := η) hF hE hh0 hh1 hhr (rs.map X.fin)
  obtain ⟨s, -, k2, k3⟩ := Mean.fold_sum (F := F) (f := h) (B := 62 * B ^ 3) hF hE (by positivity) hh0 hh1 hR.K_rep hR.K_fits (by linarith)
    hc3 rs h2
  set xs := sinceClear ops with hxs
  have hx0 : xs ≠ [] := by
    intro h0
    rw [h0] at hV
    simp only [Spec_decayVariance, Spec.ewMean, Spec.ewDevs_nil, List.map_nil, Spec.ewSum_nil, zero_div] at hV
    exact hV0.ne' hV
  have hrs : rs ≠ [] := by
    intro h; rw [h] at h1; exact hx0 (List.length_eq_zero_iff.1 h1.symm)
  have hge : h ≤ n := hN.ge (by simpa using hrs)
  have herr := hN.err
  rw [List.length_map, h1] at herr
  have hlen : ((Spec.ewDevs f xs).map (· ^ 3)).length = xs.length := by simp
  have hNp := Spec.norm_pos hh0 hh1 (n := xs.length) (by simpa using hx0)
  have hN1 : 1 - (1 - h) ^ xs.length ≤ 1 := by
    have : 0 ≤ (1 - h) ^ xs.length := pow_nonneg (by linarith) _
    linarith
  have hS := abs_ewMean_pow_le hR.f_pos hR.f_le hh0 hh1 hR.B_nonneg hB 3
  rw [Spec.ewMean, hlen] at hS ⊢
  have hs : |s - Spec.ewSum h ((Spec.ewDevs f xs).map (· ^ 3))| ≤ cubesErr u η f h B := by
    have e : s - Spec.ewSum h ((Spec.ewDevs f xs).map (· ^ 3))
        = (s - Spec.ewSum h rs) + (Spec.ewSum h rs - Spec.ewSum h ((Spec.ewDevs f xs).map (· ^ 3))) := by ring
    rw [e]
    unfold cubesErr
    exact (abs_add_le _ _).trans (by linarith)
  obtain ⟨y, z, y1, z1, z2⟩ := cube_of_sd hF hE hR.K_rep hR.K_fits hV0 (hv2.trans hρ) hρ' hη1 hησ hK1 hK3
  have hσ := Real.sqrt_pos.2 hV0
  obtain ⟨hz0, a, r, a1, r1, r2⟩ := shape_quotients hF hE hR.K_rep hR.K_fits (pow_pos hσ 3) z2 (by linarith) hh0 hh1 hge hNp hN1 hS hs herr hn hM
  refine ⟨r, ?_, ?_⟩
  · have hv := abs_le.1 hv2
    unfold Skewness.skewness
    simp only [k2, hN.norm, hv1, hF.ofNat_zero, X.lt_fin]
    rw [decide_eq_true (by linarith : 0 < n), if_pos rfl]
    have he : (eps : X F) = X.fin F.eps := rfl
    rw [he, X.lt_fin, decide_eq_true (by linarith), if_pos rfl, y1, z1, a1, r1]
  · exact r2

/-- C152 for `kurtosis()`. -/
theorem C152_decay_kurtosis_error (hF : F.Binary p emin) (hE : F.Err u η) {f g h i B K : ℝ} (hR : DecayRange F p emin u η f g B K)
    (hi0 : 0 < i) (hi1 : i ≤ 1) (hir : IsRep p emin i) (hB3K : 49 * B ^ 3 ≤ K) (hη3 : η ≤ u * B ^ 3) (hB4K : 2176 * B ^ 4 ≤ K)
    (hη4 : η ≤ u * B ^ 4) (hc4 : sumErr u η i (272 * B ^ 4) ≤ 272 * B ^ 4) (hn : 8 * sumErr u η i 1 ≤ i)
    (ops : List (Op ℝ)) (hops : pushCount ops = (sinceClear ops).length) (hB : ∀ x ∈ sinceClear ops, |x| ≤ B)
    {V ρ : ℝ} (hV : V = Spec_decayVariance f g (sinceClear ops)) (hε0 : 0 ≤ F.eps) (hε : F.eps < V - decayVarErr u η f g B)
    (hρ : decayVarErr u η f g B ≤ ρ * V) (hρ' : 12 * ρ + 24 * u ≤ 1) (hηV : η ≤ u * V ^ 2) (hKV : 2 * V ^ 2 ≤ K)
    (hM : 3 * ((2 * B) ^ 4 / V ^ 2) + 2 * (quarticsErr u η f i B / (i * V ^ 2)) + η / i ≤ K) :
    ∃ r : ℝ, (Kurtosis.run (X.fin f) (X.fin g) (X.fin h) (X.fin i) (finOps ops) : Kurtosis (X F)).kurtosis = X.fin r
      ∧ |r - Spec.ewMean i ((Spec.ewDevs f (sinceClear ops)).map (· ^ 4)) / V ^ 2|
        ≤ shapeErr u η i (quarticsErr u η f i B) ((2 * B) ^ 4) (V ^ 2) ρ := by
  have hu := hE.u_nonneg
  have hBB := mul_nonneg hR.B_nonneg hR.B_nonneg
  have hB0 := hR.B_nonneg
  have hB4 : 0 ≤ B ^ 4 := by positivity
  obtain ⟨v, hv1, hv2⟩ := C108_decay_variance_error (F := F) hF hE hR.f_pos hR.f_le hR.g_pos hR.g_le hR.f_rep hR.g_rep hR.B_nonneg
    hR.K_rep hR.K_fits hR.K1 hR.K2 hR.eta1 hR.eta2 hR.mean_K hR.sum_le hR.mean_le hR.squares_le hR.variance_K ops hops hB
  rw [← hV] at hv2
  have hdv : 0 ≤ decayVarErr u η f g B := (abs_nonneg _).trans hv2
  have hV0 : 0 < V := by linarith
  have hpc : pushCount (finOps ops : List (Op (X F))) = (sinceClear (finOps ops : List (Op (X F)))).length := by
    rw [sinceClear_finOps, List.length_map, ← hops]; exact pushCount_map _ ops
  rw [decay_variance_run _ _ _ hpc, sinceClear_finOps] at hv1
  rw [decay_kurtosis_run _ _ _ _ _ hpc, sinceClear_finOps]
  obtain ⟨rs, h1, h2, h3, h4, -⟩ := Kurtosis.fold_quartics (F := F) (g := g) (h := h) hF hE hR.f_pos hR.f_le hi0 hi1 hR.f_rep hR.B_nonneg
    hR.K_rep hR.K_fits hR.K1 (by linarith [hR.K2]) hB3K (by linarith) hR.mean_K hR.sum_le hR.mean_le hR.eta1 hR.eta2 hη3 hη4 _ hB
  rw [h4]
  obtain ⟨n, hN⟩ := Mean.fold_norm (u := u) (η := η) hF hE hi0 hi1 hir (rs.map X.fin)
  obtain ⟨s, -, k2, k3⟩ := Mean.fold_sum (F := F) (f := i) (B := 272 * B ^ 4) hF hE (by positivity) hi0 hi1 hR.K_rep hR.K_fits (by linarith)
    hc4 rs h2
  have hsup : ∀ l : List ℝ, ((l.map X.fin).foldl Skewness.push (Skewness.init (X.fin f) (X.fin g) (X.fin h)) : Skewness (X F)).super
      = (l.map X.fin).foldl Variance.push (Variance.init (X.fin f) (X.fin g)) := by
    intro l
    induction l using List.reverseRecOn with
    | nil => rfl
    | append_singleton l y ih => rw [List.map_append, List.foldl_append, List.foldl_append, ← ih]; rfl
  set xs := sinceClear ops with hxs
  have hx0 : xs ≠ [] := by
    intro h0
    rw [h0] at hV
    simp only [Spec_decayVariance, Spec.ewMean, Spec.ewDevs_nil, List.map_nil, Spec.ewSum_nil, zero_div] at hV
    exact hV0.ne' hV
  have hrs : rs ≠ [] := by
    intro h; rw [h] at h1; exact hx0 (List.length_eq_zero_iff.1 h1.symm)
  have hge : i ≤ n := hN.ge (by simpa using hrs)
  have herr := hN.err
  rw [List.length_map, h1] at herr
  have hlen : ((Spec.ewDevs f xs).map (· ^ 4)).length = xs.length := by simp
  have hNp := Spec.norm_pos hi0 hi1 (n := xs.length) (by simpa using hx0)
  have hN1 : 1 - (1 - i) ^ xs.length ≤ 1 := by
    have : 0 ≤ (1 - i) ^ xs.length := pow_nonneg (by linarith) _
    linarith
  have hS := abs_ewMean_pow_le hR.f_pos hR.f_le hi0 hi1 hR.B_nonneg hB 4
  rw [Spec.ewMean, hlen] at hS ⊢
  have hs : |s - Spec.ewSum i ((Spec.ewDevs f xs).map (· ^ 4))| ≤ quarticsErr u η f i B := by
    have e : s - Spec.ewSum i ((Spec.ewDevs f xs).map (· ^ 4))
        = (s - Spec.ewSum i rs) + (Spec.ewSum i rs - Spec.ewSum i ((Spec.ewDevs f xs).map (· ^ 4))) := by ring
    rw [e]
    unfold quarticsErr
    exact (abs_add_le _ _).trans (by linarith)
  obtain ⟨z, z1, z2⟩ := square_of_variance hF hE hR.K_rep hR.K_fits hV0 (hv2.trans hρ) hρ' hηV hKV
  obtain ⟨hz0, a, r, a1, r1, r2⟩ := shape_quotients hF hE hR.K_rep hR.K_fits (pow_pos hV0 2) z2 (by linarith) hi0 hi1 hge hNp hN1 hS hs herr hn hM
  refine ⟨r, ?_, ?_⟩
  · have hv := abs_le.1 hv2
    unfold Kurtosis.kurtosis Skewness.variance
    simp only [hsup, k2, hN.norm, hv1, hF.ofNat_zero, X.lt_fin]
    rw [decide_eq_true (by linarith : 0 < n), if_pos rfl]
    have he : (eps : X F) = X.fin F.eps := rfl
    rw [he, X.lt_fin, decide_eq_true (by linarith), if_pos rfl, z1, a1, r1]
  · exact r2

/-- `double` with all factors 1/2, values up to 8 and a variance of at least 1: skewness and kurtosis are within `2^-12` after any
number of values. -/
example (xs : List ℝ) (hB : ∀ x ∈ xs, |x| ≤ 8) (hV1 : 1 ≤ Spec_decayVariance (1 / 2) (1 / 2) xs) :
    (∃ r : ℝ, (Skewness.run (X.fin (1 / 2)) (X.fin (1 / 2)) (X.fin (1 / 2)) (finOps (xs.map Op.push)) : Skewness (X binary64)).skewness
        = X.fin r
      ∧ |r - Spec.ewMean (1 / 2) ((Spec.ewDevs (1 / 2) xs).map (· ^ 3)) / √(Spec_decayVariance (1 / 2) (1 / 2) xs) ^ 3| ≤ 2 ^ (-12 : Int))
    ∧ ∃ r : ℝ, (Kurtosis.run (X.fin (1 / 2)) (X.fin (1 / 2)) (X.fin (1 / 2)) (X.fin (1 / 2)) (finOps (xs.map Op.push)) :
        Kurtosis (X binary64)).kurtosis = X.fin r
      ∧ |r - Spec.ewMean (1 / 2) ((Spec.ewDevs (1 / 2) xs).map (· ^ 4)) / Spec_decayVariance (1 / 2) (1 / 2) xs ^ 2| ≤ 2 ^ (-12 : Int) := by
  have h16 := binary64_int (n := 2 ^ 40) (by norm_num)
  push_cast at h16
  have hf := double 1 (-1) (by norm_num) (by norm_num) (by norm_num)
  have hff : ((1 : Int) : ℝ) * 2 ^ (-1 : Int) = 1 / 2 := by norm_num
  rw [hff] at hf
  have hu : (2 : ℝ) ^ (-53 : Int) ≤ 1 / 2 ^ 53 := by norm_num
  have hη : (2 : ℝ) ^ (-1075 : Int) ≤ 2 ^ (-53 : Int) := zpow_le_zpow_right₀ (by norm_num) (by norm_num)
  have hu0 : (0 : ℝ) ≤ 2 ^ (-53 : Int) := by positivity
  have hη0 : (0 : ℝ) ≤ 2 ^ (-1075 : Int) := by positivity
  have h12 : (2 : ℝ) ^ (-12 : Int) = 2 ^ 41 * (1 / 2 ^ 53) := by norm_num
  have heps : binary64.eps = 2 * 2 ^ (-53 : Int) := by
    show (2 : ℝ) ^ _ = _
    norm_num
  have hE := binary64_err
  rw [h12]
  have hs : sinceClear (xs.map Op.push) = xs := sinceClear_pushes xs
  generalize (2 : ℝ) ^ (-53 : Int) = u at *
  generalize (2 : ℝ) ^ (-1075 : Int) = η at *
  have hu1 : u ≤ 1 / 2 ^ 53 := hu
  have e8 : sumErr u η (1 / 2) 8 ≤ 120 * u := by unfold sumErr; linarith
  have e1 : sumErr u η (1 / 2) 1 ≤ 22 * u := by unfold sumErr; linarith
  have e14 : sumErr u η (1 / 2) (14 * (8 * 8)) ≤ 12560 * u := by unfold sumErr; linarith
  have e62 : sumErr u η (1 / 2) (62 * 8 ^ 3) ≤ 600000 * u := by unfold sumErr; linarith
  have e272 : sumErr u η (1 / 2) (272 * 8 ^ 4) ≤ 20000000 * u := by unfold sumErr; linarith
  have p8 := sumErr_nonneg hE (B := 8) (f := 1 / 2) (by norm_num) (by norm_num)
  have p1 := sumErr_nonneg hE (B := 1) (f := 1 / 2) (by norm_num) (by norm_num)
  have p14 := sumErr_nonneg hE (B := 14 * (8 * 8)) (f := 1 / 2) (by norm_num) (by norm_num)
  have p62 := sumErr_nonneg hE (B := 62 * 8 ^ 3) (f := 1 / 2) (by norm_num) (by norm_num)
  have p272 := sumErr_nonneg hE (B := 272 * 8 ^ 4) (f := 1 / 2) (by norm_num) (by norm_num)
  have eM : meanErr u η (1 / 2) 8 ≤ 1200 * u := by
    unfold meanErr
    have h3 : (1 + u) * ((sumErr u η (1 / 2) 8 + 8 * sumErr u η (1 / 2) 1) / (1 / 2)) ≤ (1 + 1) * ((120 * u + 8 * (22 * u)) / (1 / 2)) := by
      refine mul_le_mul (by norm_num at hu; linarith) (by linarith) ?_ (by norm_num)
      positivity
    linarith
  have pM : 0 ≤ meanErr u η (1 / 2) 8 := by unfold meanErr; positivity
  norm_num at hu1
  have eV : decayVarErr u η (1 / 2) (1 / 2) 8 ≤ 500000 * u := by
    unfold decayVarErr
    have h3 : (1 + u) * ((sumErr u η (1 / 2) (14 * (8 * 8)) + (6 * (8 * meanErr u η (1 / 2) 8) + 36 * (u * (8 * 8)))
        + 4 * (8 * 8) * sumErr u η (1 / 2) 1) / (1 / 2)) ≤ (1 + 1) * (200000 * u) := by
      refine mul_le_mul (by linarith) (by linarith) ?_ (by norm_num)
      positivity
    linarith
  have eC : cubesErr u η (1 / 2) (1 / 2) 8 ≤ 3000000 * u := by unfold cubesErr; linarith
  have eQ : quarticsErr u η (1 / 2) (1 / 2) 8 ≤ 90000000 * u := by unfold quarticsErr; linarith
  have hR : DecayRange binary64 53 (-1074) u η (1 / 2) (1 / 2) 8 1099511627776 :=
    { f_pos := by norm_num, f_le := by norm_num, g_pos := by norm_num, g_le := by norm_num, f_rep := hf.1, g_rep := hf.1,
      B_nonneg := by norm_num, K_rep := h16.1, K_fits := h16.2, K1 := by norm_num, K2 := by norm_num, eta1 := by linarith,
      eta2 := by linarith, mean_K := by linarith, sum_le := by linarith, mean_le := by linarith, squares_le := by linarith,
      variance_K := by linarith }
  have hV2 := abs_ewMean_pow_le (f := 1 / 2) (h := 1 / 2) (by norm_num) (by norm_num) (by norm_num) (by norm_num) (by norm_num) hB 2
  obtain ⟨V, hV⟩ : ∃ V, V = Spec_decayVariance (1 / 2) (1 / 2) xs := ⟨_, rfl⟩
  have hV256 : V ≤ 256 := by
    have := (le_abs_self _).trans hV2
    rw [hV, Spec_decayVariance]
    norm_num at this ⊢
    exact this
  rw [← hV] at hV1 ⊢
  have hσ1 : 1 ≤ √V := Real.one_le_sqrt.2 hV1
  have hσ16 : √V ≤ 16 := Real.sqrt_le_iff.2 ⟨by norm_num, by linarith⟩
  have hZ3 : 1 ≤ √V ^ 3 := one_le_pow₀ hσ1
  have hZ3' : √V ^ 3 ≤ 16 ^ 3 := pow_le_pow_left₀ (by linarith) hσ16 3
  have hZ2 : 1 ≤ V ^ 2 := one_le_pow₀ hV1
  have hZ2' : V ^ 2 ≤ 256 ^ 2 := pow_le_pow_left₀ (by linarith) hV256 2
  have hC0 : 0 ≤ cubesErr u η (1 / 2) (1 / 2) 8 := by unfold cubesErr; positivity
  have hQ0 : 0 ≤ quarticsErr u η (1 / 2) (1 / 2) 8 := by unfold quarticsErr; positivity
  have hρV : (500000 * u) * 1 ≤ (500000 * u) * V := mul_le_mul_of_nonneg_left hV1 (by positivity)
  have uσ : u * 1 ≤ u * √V := mul_le_mul_of_nonneg_left hσ1 hu0
  have uσ3 : u * 1 ≤ u * √V ^ 3 := mul_le_mul_of_nonneg_left hZ3 hu0
  have uV2 : u * 1 ≤ u * V ^ 2 := mul_le_mul_of_nonneg_left hZ2 hu0
  have a3 : cubesErr u η (1 / 2) (1 / 2) 8 / (1 / 2 * √V ^ 3) ≤ 6000000 * u := by
    rw [div_le_iff₀ (by positivity)]
    have := mul_le_mul_of_nonneg_left hZ3 (show 0 ≤ 3000000 * u by positivity)
    linarith
  have a4 : quarticsErr u η (1 / 2) (1 / 2) 8 / (1 / 2 * V ^ 2) ≤ 180000000 * u := by
    rw [div_le_iff₀ (by positivity)]
    have := mul_le_mul_of_nonneg_left hZ2 (show 0 ≤ 90000000 * u by positivity)
    linarith
  have m3 : ((2 * 8) ^ 3 : ℝ) / √V ^ 3 ≤ 4096 := by
    rw [div_le_iff₀ (by positivity)]; norm_num; linarith
  have m4 : ((2 * 8) ^ 4 : ℝ) / V ^ 2 ≤ 65536 := by
    rw [div_le_iff₀ (by positivity)]; linarith
  have c0 : 0 ≤ 2 * (3 * (500000 * u) + 6 * u) + 4 * u + 2 * (sumErr u η (1 / 2) 1 / (1 / 2)) := by positivity
  constructor
  · obtain ⟨r, r1, r2⟩ := C152_decay_skewness_error binary64_binary hE (h := 1 / 2) hR (by norm_num) (by norm_num) hf.1 (by norm_num)
      (by linarith) (by linarith) (by linarith) (xs.map Op.push) (by rw [pushCount_pushes, hs]) (by rw [hs]; exact hB) (V := V)
      (ρ := 500000 * u) (by rw [hs]; exact hV) (by rw [heps]; positivity) (by rw [heps]; linarith) (by linarith) (by linarith) (by linarith)
      (by linarith) (by linarith) (by linarith) (by linarith)
    rw [hs] at r2
    refine ⟨r, r1, r2.trans ?_⟩
    unfold shapeErr
    have := mul_le_mul_of_nonneg_left m3 c0
    norm_num at this ⊢
    linarith
  · obtain ⟨r, r1, r2⟩ := C152_decay_kurtosis_error binary64_binary hE (h := 1 / 2) (i := 1 / 2) hR (by norm_num) (by norm_num) hf.1
      (by norm_num) (by linarith) (by norm_num) (by linarith) (by linarith) (by linarith) (xs.map Op.push) (by rw [pushCount_pushes, hs])
      (by rw [hs]; exact hB) (V := V) (ρ := 500000 * u) (by rw [hs]; exact hV) (by rw [heps]; positivity) (by rw [heps]; linarith)
      (by linarith) (by linarith) (by linarith) (by linarith) (by linarith)
    rw [hs] at r2
    refine ⟨r, r1, r2.trans ?_⟩
    unfold shapeErr
    have := mul_le_mul_of_nonneg_left m4 c0
    norm_num at this ⊢
    linarith

/-- The values 0 and 8 have such a variance. -/
example : 1 ≤ Spec_decayVariance (1 / 2) (1 / 2) [0, 8] := by
  rw [Spec_decayVariance, ewDevs_zero_one (by norm_num) (by norm_num)]
  simp [Spec.ewMean, Spec.ewSum, List.range_succ]
  norm_num

end Verif.Props
