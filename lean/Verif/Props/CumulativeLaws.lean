import Verif.Props.CumulativeMoments
/-
C06 - C08 and C58: clear, order independence, shift and scale laws, counter wrap-around of the cumulative
filters.
-/
namespace Verif.Props
open Scalar Exact Verif.Cumulative

variable {w : Nat} {ε : ℝ}

/-! ### C06 -/

/-- C06: in any arithmetic, calls before a `clear()` have no influence on the state after it, so every
query after `clear()` and any further calls is that of a new filter with the same further calls. -/
theorem C06_clear {α : Type} [Scalar α] (pre post : List (Op α)) (pre2 post2 : List (Op (α × α))) :
    (Mean.run (pre ++ .clear :: post) : Mean w α) = Mean.run post
    ∧ (Variance.run (pre ++ .clear :: post) : Variance w α) = Variance.run post
    ∧ (Skewness.run (pre ++ .clear :: post) : Skewness w α) = Skewness.run post
    ∧ (Kurtosis.run (pre ++ .clear :: post) : Kurtosis w α) = Kurtosis.run post
    ∧ (Trend.run (pre ++ .clear :: post) : Trend w α) = Trend.run post
    ∧ (Comoment.run (pre2 ++ .clear :: post2) : Comoment w α) = Comoment.run post2
    ∧ (Correlation.run (pre2 ++ .clear :: post2) : Correlation w α) = Correlation.run post2
    ∧ (Regression.run (pre2 ++ .clear :: post2) : Regression w α) = Regression.run post2 := by
  refine ⟨?_, ?_, ?_, ?_, ?_, ?_, ?_, ?_⟩
  · rw [Mean.run_eq, Mean.run_eq, sinceClear_clear_append]
  · rw [Variance.run_eq, Variance.run_eq, sinceClear_clear_append]
  · rw [Skewness.run_eq, Skewness.run_eq, sinceClear_clear_append]
  · rw [Kurtosis.run_eq, Kurtosis.run_eq, sinceClear_clear_append]
  · rw [Trend.run_eq, Trend.run_eq, sinceClear_clear_append]
  · rw [Comoment.run_eq, Comoment.run_eq, sinceClear_clear_append]
  · rw [Correlation.run_eq, Correlation.run_eq, sinceClear_clear_append]
  · rw [Regression.run_eq, Regression.run_eq, sinceClear_clear_append]

/-- The state before `clear()` may be arbitrarily different, e.g. poisoned by NaN. -/
example (F : Fmt) : (Mean.run [.push X.nan, .clear, .push (X.fin 1)] : Mean 64 (X F))
    = Mean.run [.push (X.fin 1)] :=
  (C06_clear [.push X.nan] [.push (X.fin 1)] [] []).1

/-! ### C07 -/

theorem mean_perm {xs ys : List ℝ} (h : xs.Perm ys) : Spec.mean xs = Spec.mean ys := by
  rw [Spec.mean, Spec.mean, h.sum_eq, h.length_eq]

theorem central_perm {xs ys : List ℝ} (h : xs.Perm ys) (k : Nat) :
    Spec.central k xs = Spec.central k ys := by
  rw [Spec.central, Spec.central, mean_perm h]
  exact (h.map _).sum_eq

theorem cosum_perm {ps qs : List (ℝ × ℝ)} (h : ps.Perm qs) : Spec.cosum ps = Spec.cosum qs := by
  have hx : (Spec.xsOf ps).Perm (Spec.xsOf qs) := h.map _
  have hy : (Spec.ysOf ps).Perm (Spec.ysOf qs) := h.map _
  rw [Spec.cosum, Spec.cosum, mean_perm hx, mean_perm hy]
  exact (h.map _).sum_eq

/-- C07: in exact arithmetic the order of the values does not matter: the filters end in the same state,
so every query gives the same result. -/
theorem C07_order_moments (ops ops' : List (Op ℝ)) (hp : (sinceClear ops).Perm (sinceClear ops'))
    (h : (sinceClear ops).length < 2 ^ w) :
    (Mean.run (finOps ops) : Mean w (E ε)) = Mean.run (finOps ops')
    ∧ (Variance.run (finOps ops) : Variance w (E ε)) = Variance.run (finOps ops')
    ∧ (Skewness.run (finOps ops) : Skewness w (E ε)) = Skewness.run (finOps ops') := by
  have h' : (sinceClear ops').length < 2 ^ w := by rwa [← hp.length_eq]
  refine ⟨?_, ?_, ?_⟩
  · rw [Mean.run_fin _ h, Mean.run_fin _ h', mean_perm hp, hp.length_eq]
  · rw [Variance.run_fin _ h, Variance.run_fin _ h', mean_perm hp, hp.length_eq, central_perm hp]
  · rw [Skewness.run_fin _ h, Skewness.run_fin _ h', mean_perm hp, hp.length_eq, central_perm hp,
      central_perm hp]

theorem C07_order_kurtosis (ops ops' : List (Op ℝ)) (hp : (sinceClear ops).Perm (sinceClear ops'))
    (h : (sinceClear ops).length * (sinceClear ops).length < 2 ^ w) :
    (Kurtosis.run (finOps ops) : Kurtosis w (E ε)) = Kurtosis.run (finOps ops') := by
  have h' : (sinceClear ops').length * (sinceClear ops').length < 2 ^ w := by
    rwa [← hp.length_eq]
  rw [Kurtosis.run_fin _ h, Kurtosis.run_fin _ h', mean_perm hp, hp.length_eq, central_perm hp,
    central_perm hp, central_perm hp]

theorem C07_order_pairs (ops ops' : List (Op (ℝ × ℝ)))
    (hp : (sinceClear ops).Perm (sinceClear ops')) (h : (sinceClear ops).length < 2 ^ w) :
    (Comoment.run (finOps2 ops) : Comoment w (E ε)) = Comoment.run (finOps2 ops')
    ∧ (Correlation.run (finOps2 ops) : Correlation w (E ε)) = Correlation.run (finOps2 ops')
    ∧ (Regression.run (finOps2 ops) : Regression w (E ε)) = Regression.run (finOps2 ops') := by
  have h' : (sinceClear ops').length < 2 ^ w := by rwa [← hp.length_eq]
  have hx : (Spec.xsOf (sinceClear ops)).Perm (Spec.xsOf (sinceClear ops')) := hp.map _
  have hy : (Spec.ysOf (sinceClear ops)).Perm (Spec.ysOf (sinceClear ops')) := hp.map _
  refine ⟨?_, ?_, ?_⟩
  · rw [Comoment.run_fin _ h, Comoment.run_fin _ h', mean_perm hx, mean_perm hy, cosum_perm hp,
      hp.length_eq]
  · rw [Correlation.run_fin _ h, Correlation.run_fin _ h', mean_perm hx, mean_perm hy, cosum_perm hp,
      hp.length_eq, central_perm hx, central_perm hy]
  · rw [Regression.run_fin _ h, Regression.run_fin _ h', mean_perm hx, mean_perm hy, cosum_perm hp,
      hp.length_eq, central_perm hx, central_perm hy]

example : (Variance.run (finOps [.push 1, .push 2, .push 6]) : Variance 64 (E ε))
    = Variance.run (finOps [.push 6, .push 1, .push 2]) :=
  (C07_order_moments [.push 1, .push 2, .push 6] [.push 6, .push 1, .push 2]
    (by
      have : (([1, 2] : List ℝ) ++ [6]).Perm ([6] ++ [1, 2]) := List.perm_append_comm
      exact this) (by simp [sinceClear])).2.1

/-! ### C08 -/

theorem mean_affine (a b : ℝ) {xs : List ℝ} (hne : xs ≠ []) :
    Spec.mean (xs.map fun x => a * x + b) = a * Spec.mean xs + b := by
  have hs : ∀ l : List ℝ, (l.map fun x => a * x + b).sum = a * l.sum + l.length * b := by
    intro l
    induction l with
    | nil => simp
    | cons y l ih => simp only [List.map_cons, List.sum_cons, ih, List.length_cons]; push_cast; ring
  have hl : (xs.length : ℝ) ≠ 0 := by simpa using hne
  rw [Spec.mean, Spec.mean, hs, List.length_map]
  field_simp

theorem central_affine (a b : ℝ) (k : Nat) (xs : List ℝ) :
    Spec.central k (xs.map fun x => a * x + b) = a ^ k * Spec.central k xs := by
  rcases eq_or_ne xs [] with rfl | hne
  · simp
  · rw [Spec.central, Spec.central, mean_affine a b hne, List.map_map, ← List.sum_map_mul_left]
    congr 1
    apply List.map_congr_left
    intro x _
    simp only [Function.comp_def]
    rw [← mul_pow]; ring

/-- C08: mean and variance under `x ↦ a x + b`. -/
theorem C08_affine_mean_variance (a b : ℝ) (ops : List (Op ℝ))
    (h : (sinceClear ops).length < 2 ^ w) (hne : sinceClear ops ≠ []) :
    ∃ m v : ℝ,
      (Variance.run (finOps ops) : Variance w (E ε)).getMean = X.fin m
      ∧ (Variance.run (finOps ops) : Variance w (E ε)).variance = X.fin v
      ∧ (Variance.run (finOps (affine a b ops)) : Variance w (E ε)).getMean = X.fin (a * m + b)
      ∧ (Variance.run (finOps (affine a b ops)) : Variance w (E ε)).variance
          = X.fin (a ^ 2 * v) := by
  have h' : (sinceClear (affine a b ops)).length < 2 ^ w := by
    rw [sinceClear_affine, List.length_map]; exact h
  have h1 : 1 ≤ (sinceClear ops).length := List.length_pos_iff.2 hne
  have h1' : 1 ≤ (sinceClear (affine a b ops)).length := by
    rw [sinceClear_affine, List.length_map]; exact h1
  refine ⟨Spec.mean (sinceClear ops), Spec.variance (sinceClear ops), ?_, ?_, ?_, ?_⟩
  · rw [Variance.run_fin _ h]; rfl
  · exact ((C02_variance (ε := ε) ops h).1 h1).1
  · rw [Variance.run_fin _ h', ← mean_affine a b hne, ← sinceClear_affine]; rfl
  · rw [((C02_variance (ε := ε) (affine a b ops) h').1 h1').1, Spec.variance, Spec.variance,
      sinceClear_affine, central_affine, List.length_map, mul_div_assoc]

example : ∃ m v : ℝ, (Variance.run (finOps demo) : Variance 64 (E ε)).getMean = X.fin m
    ∧ (Variance.run (finOps demo) : Variance 64 (E ε)).variance = X.fin v
    ∧ (Variance.run (finOps (affine 2 5 demo)) : Variance 64 (E ε)).getMean = X.fin (2 * m + 5)
    ∧ (Variance.run (finOps (affine 2 5 demo)) : Variance 64 (E ε)).variance = X.fin (2 ^ 2 * v) :=
  C08_affine_mean_variance 2 5 demo (by rw [sinceClear_demo]; simp) (by simp [sinceClear_demo])

/-- C08: skewness under `x ↦ a x + b`, `a > 0`, above the cut-off. -/
theorem C08_affine_skewness (hε : 0 < ε) (a b : ℝ) (ha : 0 < a) (ops : List (Op ℝ))
    (h : (sinceClear ops).length < 2 ^ w)
    (hcut : ε ≤ Spec.central 3 (sinceClear ops))
    (hcut' : ε ≤ Spec.central 3 (sinceClear (affine a b ops))) :
    (Skewness.run (finOps (affine a b ops)) : Skewness w (E ε)).skewness
      = (Skewness.run (finOps ops) : Skewness w (E ε)).skewness := by
  have h' : (sinceClear (affine a b ops)).length < 2 ^ w := by
    rw [sinceClear_affine, List.length_map]; exact h
  rw [skewness_result hε _ h, skewness_result hε _ h', if_neg (not_lt.2 hcut),
    if_neg (not_lt.2 hcut'), X.fin_inj]
  simp only [Spec.skewness, Spec.variance, sinceClear_affine, central_affine, List.length_map,
    mul_div_assoc]
  rw [Real.sqrt_mul (sq_nonneg a), Real.sqrt_sq ha.le, mul_pow, ← mul_div_assoc,
    mul_div_mul_left _ _ (by positivity)]

/-- C08: kurtosis under `x ↦ a x + b`, `a ≠ 0`, above the cut-off. -/
theorem C08_affine_kurtosis (hε : 0 < ε) (a b : ℝ) (ha : a ≠ 0) (ops : List (Op ℝ))
    (h : (sinceClear ops).length * (sinceClear ops).length < 2 ^ w)
    (hcut : ε ≤ Spec.central 4 (sinceClear ops))
    (hcut' : ε ≤ Spec.central 4 (sinceClear (affine a b ops))) :
    (Kurtosis.run (finOps (affine a b ops)) : Kurtosis w (E ε)).kurtosis
      = (Kurtosis.run (finOps ops) : Kurtosis w (E ε)).kurtosis := by
  have h' : (sinceClear (affine a b ops)).length * (sinceClear (affine a b ops)).length < 2 ^ w := by
    rw [sinceClear_affine, List.length_map]; exact h
  rw [((C04_kurtosis hε _ h).2 hcut).1, ((C04_kurtosis hε _ h').2 hcut').1, X.fin_inj]
  simp only [Spec.kurtosis, Spec.variance, sinceClear_affine, central_affine, List.length_map,
    mul_div_assoc]
  rw [mul_pow, ← pow_mul, ← mul_div_assoc, mul_div_mul_left _ _ (by positivity)]

example (hε : 0 < ε) (hε1 : ε ≤ 1) :
    (Kurtosis.run (finOps (affine (-2) 5 demo)) : Kurtosis 64 (E ε)).kurtosis
      = (Kurtosis.run (finOps demo) : Kurtosis 64 (E ε)).kurtosis := by
  have h4 : Spec.central 4 (sinceClear demo) = 98 := by
    simp [sinceClear_demo, Spec.central, Spec.mean]; norm_num
  refine C08_affine_kurtosis hε (-2) 5 (by norm_num) demo (by rw [sinceClear_demo]; simp)
    (by rw [h4]; linarith) (by rw [sinceClear_affine, central_affine, h4]; linarith)

example (hε : 0 < ε) (hε1 : ε ≤ 1) :
    (Skewness.run (finOps (affine 2 5 demo)) : Skewness 64 (E ε)).skewness
      = (Skewness.run (finOps demo) : Skewness 64 (E ε)).skewness := by
  have h3 : Spec.central 3 (sinceClear demo) = 18 := by
    simp [sinceClear_demo, Spec.central, Spec.mean]; norm_num
  refine C08_affine_skewness hε 2 5 (by norm_num) demo (by rw [sinceClear_demo]; simp)
    (by rw [h3]; linarith) (by rw [sinceClear_affine, central_affine, h3]; linarith)

/-! ### C58 -/

/-- C58: in any arithmetic `size()` is the number of values since the last `clear()` modulo `2^w`. -/
theorem C58_size_modular {α : Type} [Scalar α] (ops : List (Op α)) :
    (Mean.run ops : Mean w α).size.toNat = (sinceClear ops).length % 2 ^ w := by
  rw [Mean.run_eq]
  have : ((sinceClear ops).foldl Mean.push (Mean.init : Mean w α)).size
      = BitVec.ofNat w (sinceClear ops).length := by
    induction sinceClear ops using List.reverseRecOn with
    | nil => rfl
    | append_singleton xs x ih =>
      simp only [List.foldl_append, List.foldl_cons, List.foldl_nil, List.length_append,
        List.length_singleton, ← ofNat_add_one, ← ih]
      rfl
  rw [this, BitVec.toNat_ofNat]

/-- C58: the mean is correct before the counter wraps (C01), and the push that wraps the counter divides
by zero: the mean becomes NaN or an infinity, and not a number at all, whatever the data. -/
theorem C58_wrap_divides_by_zero (ops : List (Op ℝ)) (h : (sinceClear ops).length = 2 ^ w) :
    ¬ (Mean.run (finOps ops) : Mean w (E ε)).getMean.IsFin
    ∧ (Mean.run (finOps ops) : Mean w (E ε)).empty = true := by
  rw [Mean.run_eq, sinceClear_finOps]
  obtain ⟨xs, x, hx⟩ : ∃ xs x, sinceClear ops = xs ++ [x] := by
    refine ⟨_, _, (List.dropLast_append_getLast (l := sinceClear ops) ?_).symm⟩
    intro e
    rw [e] at h
    exact absurd h (Nat.two_pow_pos w).ne
  rw [hx] at h ⊢
  simp only [List.length_append, List.length_singleton] at h
  rw [List.map_append, List.foldl_append, Mean.fold xs (by omega)]
  have hz : BitVec.ofNat w (xs.length + 1) = 0 := by
    rw [h]; apply BitVec.eq_of_toNat_eq; simp
  simp only [List.map_cons, List.map_nil, List.foldl_cons, List.foldl_nil, Mean.push, ofNat_add_one, hz,
    Mean.getMean, Mean.empty, Mean.size]
  refine ⟨?_, by simp⟩
  have e0 : (ofSize (0 : SizeT w) : E ε) = X.fin 0 := by simp [Scalar.ofSize]
  rw [e0, sub_fin, X.div_fin_zero, X.signedInf]
  rintro ⟨r, hr⟩
  split_ifs at hr <;> cases hr

/-- With an 8-bit counter this happens at the 256th push. -/
example : ¬ (Mean.run (finOps ((List.replicate 256 (1 : ℝ)).map Op.push)) : Mean 8 (E ε)).getMean.IsFin := by
  refine (C58_wrap_divides_by_zero (w := 8) _ ?_).1
  rw [sinceClear_pushes, List.length_replicate]; rfl

/-- The state of the kurtosis filter after zeros only. -/
theorem Kurtosis_fold_zeros (m : Nat) (h : m < 2 ^ w) :
    ((List.replicate m (0 : ℝ)).map X.fin).foldl Kurtosis.push (Kurtosis.init : Kurtosis w (E ε))
      = { super :=
            { super := { super := { mean := X.fin 0, count := BitVec.ofNat w m }
                         sumVariance := X.fin 0 }
              sumSkewness := X.fin 0 }
          sumKurtosis := X.fin 0 } := by
  induction m with
  | zero => simp [Kurtosis.init, Skewness.init, Variance.init, Mean.init]
  | succ m ih =>
    have hne : ((m : ℝ) + 1) ≠ 0 := by positivity
    rw [List.replicate_succ', List.map_append, List.foldl_append, ih (by omega)]
    simp only [List.map_cons, List.map_nil, List.foldl_cons, List.foldl_nil, Kurtosis.push,
      Skewness.push, Variance.push, Mean.push, Kurtosis.size, Skewness.size, Variance.size, Mean.size,
      Skewness.getMean, Variance.getMean, Mean.getMean, ofNat_add_one, sub_fin, Scalar.ofSize, Exact.ofNat_eq, toNat_ofNat_lt h]
    rw [div_fin _ (by push_cast; exact hne)]
    simp

/-- C58, sharper limit for kurtosis: as soon as `n(n-3)+3` exceeds `size_t` (`n ≈ 2^(w/2)`, i.e. `2^32`
values on a 64-bit machine) `kurtosis()` is wrong, for instance for `n-1` zeros followed by a one: the
accumulated fourth power sum is not the fourth central power sum of the data. -/
theorem C58_kurtosis_limit (n : Nat) (h1 : 2 ≤ n) (hn : n < 2 ^ w) (hbig : 2 ^ w ≤ n * n + 3 - 3 * n) :
    (Kurtosis.run (finOps ((List.replicate (n - 1) (0 : ℝ) ++ [1]).map Op.push))
        : Kurtosis w (E ε)).sumKurtosis
      ≠ X.fin (Spec.central 4 (List.replicate (n - 1) (0 : ℝ) ++ [1])) := by
  obtain ⟨m, rfl⟩ : ∃ m, n = m + 1 := ⟨n - 1, by omega⟩
  rw [Kurtosis.run_eq, sinceClear_finOps, sinceClear_pushes, List.map_append, List.foldl_append,
    Nat.add_sub_cancel, Kurtosis_fold_zeros m (by omega), Spec.central_four_snoc]
  simp only [List.map_cons, List.map_nil, List.foldl_cons, List.foldl_nil, Kurtosis.push,
    Kurtosis.size, Skewness.size, Variance.size, Mean.size,
    Skewness.getMean, Variance.getMean, Mean.getMean, ofNat_add_one, sub_fin, ofSize_exact hn]
  have hm0 : Spec.mean (List.replicate m (0 : ℝ)) = 0 := by simp [Spec.mean]
  have hc : ∀ k, k ≠ 0 → Spec.central k (List.replicate m (0 : ℝ)) = 0 := by
    intro k hk
    rw [Spec.central, hm0]; simp [hk]
  rw [hm0, hc 4 (by norm_num), hc 3 (by norm_num), hc 2 (by norm_num),
    div_fin _ (by positivity), mul_fin, ofNat_sub_one (by omega), Nat.add_sub_cancel,
    ofSize_exact (by omega)]
  have key : BitVec.ofNat w (m + 1) * (BitVec.ofNat w (m + 1) - 3) + 3
      = BitVec.ofNat w ((m + 1) * (m + 1) + 3 - 3 * (m + 1)) := by
    have h3 : (3 : BitVec w) = BitVec.ofNat w 3 := rfl
    generalize m + 1 = k
    rw [← ofNat_sub (three_mul_le k), BitVec.ofNat_add, BitVec.ofNat_mul, BitVec.ofNat_mul, h3]
    ring
  rw [key, Scalar.ofSize, BitVec.toNat_ofNat]
  have hlt : ((m + 1) * (m + 1) + 3 - 3 * (m + 1)) % 2 ^ w
      < (m + 1) * (m + 1) + 3 - 3 * (m + 1) :=
    lt_of_lt_of_le (Nat.mod_lt _ (Nat.two_pow_pos w)) hbig
  generalize hr : ((m + 1) * (m + 1) + 3 - 3 * (m + 1)) % 2 ^ w = r at hlt ⊢
  have hlt' : (r : ℝ) < ((m : ℝ) + 1) ^ 2 - 3 * (m + 1) + 3 := by
    have : ((r : ℕ) : ℝ) < (((m + 1) * (m + 1) + 3 - 3 * (m + 1) : ℕ) : ℝ) := by exact_mod_cast hlt
    rw [Nat.cast_sub (three_mul_le (m + 1))] at this
    push_cast at this
    nlinarith
  simp only [Exact.ofNat_eq, mul_fin, add_fin, sub_fin, List.length_replicate]
  intro hcon
  rw [X.fin_inj] at hcon
  have hmp : (1 : ℝ) ≤ m := by
    have : 1 ≤ m := by omega
    exact_mod_cast this
  push_cast at hcon
  have hd : (0 : ℝ) < (1 - 0) / (m + 1) := by positivity
  have hq : (1 - 0) * ((1 - 0) / ((m : ℝ) + 1)) * m * r
      < (1 - 0) * ((1 - 0) / ((m : ℝ) + 1)) * m * (((m : ℝ) + 1) ^ 2 - 3 * (m + 1) + 3) :=
    mul_lt_mul_of_pos_left hlt' (by positivity)
  have h1 := mul_lt_mul_of_pos_right (mul_lt_mul_of_pos_right hq hd) hd
  simp only [mul_zero, add_zero, sub_zero, zero_add] at hcon h1
  linarith

/-- With an 8-bit counter `n = 18` already exceeds the limit. -/
example : (Kurtosis.run (finOps ((List.replicate 17 (0 : ℝ) ++ [1]).map Op.push))
    : Kurtosis 8 (E ε)).sumKurtosis ≠ X.fin (Spec.central 4 (List.replicate 17 (0 : ℝ) ++ [1])) :=
  C58_kurtosis_limit 18 (by norm_num) (by norm_num) (by norm_num)

end Verif.Props
