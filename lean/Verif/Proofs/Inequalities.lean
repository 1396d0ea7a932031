import Verif.Proofs.PairLemmas
/-
Inequalities between the moments of a list (nothing here refers to the model).
-/
namespace Verif.Spec

theorem sum_range_prod (lo hi c : ℝ) (xs : List ℝ) :
    (xs.map fun x => (hi - x) * (x - lo)).sum
      = xs.length * ((hi - c) * (c - lo)) + (hi + lo - 2 * c) * about 1 c xs - about 2 c xs := by
  induction xs with
  | nil => simp
  | cons x xs ih =>
    simp only [List.map_cons, List.sum_cons, ih, about_cons, List.length_cons]; push_cast; ring

/-- Bhatia and Davis. -/
theorem bhatia_davis {lo hi : ℝ} {xs : List ℝ} (hne : xs ≠ []) (h : ∀ x ∈ xs, lo ≤ x ∧ x ≤ hi) :
    variance xs ≤ (hi - mean xs) * (mean xs - lo) := by
  have hn := length_pos hne
  have h0 : 0 ≤ (xs.map fun x => (hi - x) * (x - lo)).sum := by
    apply List.sum_nonneg
    intro y hy
    obtain ⟨x, hx, rfl⟩ := List.mem_map.1 hy
    exact mul_nonneg (by linarith [(h x hx).2]) (by linarith [(h x hx).1])
  have h1 : about 1 (mean xs) xs = 0 := central_one xs
  rw [sum_range_prod lo hi (mean xs), h1, ← central_eq_about, mul_zero, add_zero] at h0
  rw [variance, div_le_iff₀ hn]
  linarith

/-- Popoviciu. -/
theorem popoviciu {lo hi : ℝ} {xs : List ℝ} (hne : xs ≠ []) (h : ∀ x ∈ xs, lo ≤ x ∧ x ≤ hi) :
    variance xs ≤ (hi - lo) ^ 2 / 4 := by
  have := bhatia_davis hne h
  nlinarith [sq_nonneg ((hi - mean xs) - (mean xs - lo))]

theorem about_one_sq_le (c : ℝ) (xs : List ℝ) : about 1 c xs ^ 2 ≤ xs.length * about 2 c xs := by
  rcases eq_or_ne xs [] with rfl | hne
  · simp
  have hn := length_pos hne
  have h := about_even_nonneg 2 (by norm_num) (c + about 1 c xs / xs.length) xs
  rw [about_two_shift] at h
  have e : about 2 c xs - 2 * (about 1 c xs / xs.length) * about 1 c xs
      + xs.length * (about 1 c xs / xs.length) ^ 2 = about 2 c xs - about 1 c xs ^ 2 / xs.length := by
    field_simp; ring
  rw [e, sub_nonneg, div_le_iff₀ hn] at h
  linarith

/-- Samuelson: no value is far from the mean. -/
theorem samuelson {xs : List ℝ} {x : ℝ} (hx : x ∈ xs) :
    (x - mean xs) ^ 2 ≤ (xs.length - 1) * variance xs := by
  have hne : xs ≠ [] := List.ne_nil_of_mem hx
  have hn := length_pos hne
  obtain ⟨l, r, e⟩ := List.append_of_mem hx
  have h1 : about 1 (mean xs) xs = 0 := central_one xs
  have h2 : about 2 (mean xs) xs = central 2 xs := rfl
  have hc := about_one_sq_le (mean xs) (l ++ r)
  have a1 : about 1 (mean xs) (l ++ r) = -(x - mean xs) := by
    have : about 1 (mean xs) (l ++ x :: r) = 0 := by rw [← e]; exact h1
    rw [about_append, about_cons] at this
    rw [about_append]; linarith
  have a2 : about 2 (mean xs) (l ++ r) = central 2 xs - (x - mean xs) ^ 2 := by
    have : about 2 (mean xs) (l ++ x :: r) = central 2 xs := by rw [← e]; rfl
    rw [about_append, about_cons] at this
    rw [about_append]; linarith
  have hl : ((l ++ r).length : ℝ) = xs.length - 1 := by
    rw [e]; simp; ring
  rw [a1, a2, hl] at hc
  rw [variance, mul_div_assoc', le_div_iff₀ hn]
  nlinarith

theorem sum_poly (c a b : ℝ) (xs : List ℝ) :
    (xs.map fun x => ((x - c) ^ 2 - a * (x - c) - b) ^ 2).sum
      = about 4 c xs - 2 * a * about 3 c xs + (a ^ 2 - 2 * b) * about 2 c xs + 2 * a * b * about 1 c xs
        + xs.length * b ^ 2 := by
  induction xs with
  | nil => simp
  | cons x xs ih =>
    simp only [List.map_cons, List.sum_cons, ih, about_cons, List.length_cons]; push_cast; ring

/-- Pearson: kurtosis is at least skewness² + 1. -/
theorem pearson_moments {xs : List ℝ} (h2 : 0 < central 2 xs) : skewness xs ^ 2 + 1 ≤ kurtosis xs := by
  have hne : xs ≠ [] := by rintro rfl; simp [central] at h2
  have hn := length_pos hne
  set n : ℝ := (xs.length : ℝ) with hnn
  have hv : 0 < variance xs := div_pos h2 hn
  have h1 : about 1 (mean xs) xs = 0 := central_one xs
  have hs := sum_map_sq_nonneg
    (fun x => (x - mean xs) ^ 2 - central 3 xs / central 2 xs * (x - mean xs) - central 2 xs / n) xs
  rw [sum_poly, h1, ← central_eq_about, ← central_eq_about, ← central_eq_about, mul_zero, add_zero, ← hnn] at hs
  have e : central 4 xs - 2 * (central 3 xs / central 2 xs) * central 3 xs
      + ((central 3 xs / central 2 xs) ^ 2 - 2 * (central 2 xs / n)) * central 2 xs + n * (central 2 xs / n) ^ 2
      = central 4 xs - central 3 xs ^ 2 / central 2 xs - central 2 xs ^ 2 / n := by
    field_simp; ring
  rw [e] at hs
  have hsq : (Real.sqrt (variance xs) ^ 3) ^ 2 = variance xs ^ 3 := by
    rw [← pow_mul, mul_comm 3 2, pow_mul, Real.sq_sqrt hv.le]
  have e1 : skewness xs ^ 2 = n * central 3 xs ^ 2 / central 2 xs ^ 3 := by
    rw [skewness, div_pow, hsq, variance, ← hnn]; field_simp
  have e2 : kurtosis xs = n * central 4 xs / central 2 xs ^ 2 := by
    rw [kurtosis, variance, ← hnn]; field_simp
  rw [e1, e2]
  have e3 : n * central 3 xs ^ 2 / central 2 xs ^ 3 + 1
      = (n * (central 3 xs ^ 2 / central 2 xs) + central 2 xs ^ 2) / central 2 xs ^ 2 := by
    field_simp
  rw [e3]
  apply div_le_div_of_nonneg_right _ (by positivity)
  have e4 : n * (central 2 xs ^ 2 / n) = central 2 xs ^ 2 := by field_simp
  nlinarith [mul_nonneg hn.le hs]

theorem about_four_le (c : ℝ) (xs : List ℝ) : about 4 c xs ≤ about 2 c xs ^ 2 := by
  induction xs with
  | nil => simp
  | cons x xs ih =>
    simp only [about_cons]
    have h := about_even_nonneg 2 (by norm_num) c xs
    nlinarith [mul_nonneg (sq_nonneg (x - c)) h]

/-- Kurtosis is at most the number of values. -/
theorem kurtosis_le {xs : List ℝ} (h2 : 0 < central 2 xs) : kurtosis xs ≤ xs.length := by
  have hne : xs ≠ [] := by rintro rfl; simp [central] at h2
  have hn := length_pos hne
  have e2 : kurtosis xs = xs.length * (central 4 xs / central 2 xs ^ 2) := by
    rw [kurtosis, variance]; field_simp
  rw [e2]
  have : central 4 xs / central 2 xs ^ 2 ≤ 1 := by
    rw [div_le_one (by positivity)]; exact about_four_le _ _
  nlinarith

end Verif.Spec
