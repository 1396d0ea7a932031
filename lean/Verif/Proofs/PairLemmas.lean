import Verif.Proofs.SpecLemmas
/-
Cauchy-Schwarz and least squares for lists of pairs (nothing here refers to the model).
-/
namespace Verif.Spec

theorem length_ne_zero {β : Type} {l : List β} (h : l ≠ []) : (l.length : ℝ) ≠ 0 := by simpa using h

theorem length_pos {β : Type} {l : List β} (h : l ≠ []) : (0 : ℝ) < l.length := by
  exact_mod_cast List.length_pos_iff.2 h

/-- `Σ (A b - C a)²` expanded. -/
theorem sum_comb (u v : ℝ) (ps : List (ℝ × ℝ)) :
    (ps.map fun p => (u * p.2 - v * p.1) ^ 2).sum
      = u ^ 2 * (ps.map fun p => p.2 ^ 2).sum - 2 * u * v * (ps.map fun p => p.1 * p.2).sum
        + v ^ 2 * (ps.map fun p => p.1 ^ 2).sum := by
  induction ps with
  | nil => simp
  | cons p ps ih => simp only [List.map_cons, List.sum_cons, ih]; ring

theorem sum_map_sq_nonneg {β : Type} (f : β → ℝ) (l : List β) : 0 ≤ (l.map fun p => f p ^ 2).sum :=
  List.sum_nonneg (by
    intro y hy
    obtain ⟨x, _, rfl⟩ := List.mem_map.1 hy
    exact sq_nonneg _)

theorem sum_map_sq_eq_zero {β : Type} (f : β → ℝ) (l : List β) :
    (l.map fun p => f p ^ 2).sum = 0 ↔ ∀ p ∈ l, f p = 0 := by
  induction l with
  | nil => simp
  | cons x l ih =>
    rw [List.map_cons, List.sum_cons,
      add_eq_zero_iff_of_nonneg (sq_nonneg _) (sum_map_sq_nonneg f l), ih]
    simp

theorem cauchy_schwarz (ps : List (ℝ × ℝ)) :
    (ps.map fun p => p.1 * p.2).sum ^ 2
      ≤ (ps.map fun p => p.1 ^ 2).sum * (ps.map fun p => p.2 ^ 2).sum := by
  rcases (sum_map_sq_nonneg (fun p : ℝ × ℝ => p.1) ps).eq_or_lt with h | h
  · have h0 := (sum_map_sq_eq_zero (fun p : ℝ × ℝ => p.1) ps).1 h.symm
    have : (ps.map fun p => p.1 * p.2).sum = 0 := by
      rw [List.map_congr_left (g := fun _ => (0 : ℝ)) (fun p hp => by rw [h0 p hp]; ring)]
      simp
    rw [this, ← h]; simp
  · have e := sum_map_sq_nonneg (fun p : ℝ × ℝ => (ps.map fun p => p.1 ^ 2).sum * p.2
        - (ps.map fun p => p.1 * p.2).sum * p.1) ps
    rw [sum_comb] at e
    have : 0 ≤ (ps.map fun p => p.1 ^ 2).sum
        * ((ps.map fun p => p.1 ^ 2).sum * (ps.map fun p => p.2 ^ 2).sum
          - (ps.map fun p => p.1 * p.2).sum ^ 2) := by nlinarith
    have := nonneg_of_mul_nonneg_right this h
    linarith

theorem cosum_sq_le (ps : List (ℝ × ℝ)) :
    cosum ps ^ 2 ≤ central 2 (xsOf ps) * central 2 (ysOf ps) := by
  have := cauchy_schwarz (ps.map fun p => (p.1 - mean (xsOf ps), p.2 - mean (ysOf ps)))
  simp only [List.map_map, Function.comp_def] at this
  simpa only [cosum, central, xsOf, ysOf, List.map_map, Function.comp_def] using this

theorem cosum_swap (ps : List (ℝ × ℝ)) : cosum (ps.map Prod.swap) = cosum ps := by
  have e1 : xsOf (ps.map Prod.swap) = ysOf ps := by simp [xsOf, ysOf, Function.comp_def]
  have e2 : ysOf (ps.map Prod.swap) = xsOf ps := by simp [xsOf, ysOf, Function.comp_def]
  rw [cosum, cosum, e1, e2, List.map_map]
  congr 1
  apply List.map_congr_left
  intro p _
  simp [mul_comm]

theorem cosum_diag (xs : List ℝ) : cosum (xs.map fun x => (x, x)) = central 2 xs := by
  have e1 : xsOf (xs.map fun x => (x, x)) = xs := by simp [xsOf, Function.comp_def]
  have e2 : ysOf (xs.map fun x => (x, x)) = xs := by simp [ysOf, Function.comp_def]
  rw [cosum, central, e1, e2, List.map_map]
  congr 1
  apply List.map_congr_left
  intro x _
  simp [sq]

/-- The residual sum of squares of any line, in terms of the centered sums. -/
theorem sse_eq (a b : ℝ) (ps : List (ℝ × ℝ)) :
    sse a b ps = ps.length * (mean (ysOf ps) - (a + b * mean (xsOf ps))) ^ 2
      + central 2 (ysOf ps) - 2 * b * cosum ps + b ^ 2 * central 2 (xsOf ps) := by
  have gen : ∀ (mx my : ℝ) (l : List (ℝ × ℝ)),
      sse a b l = l.length * (my - (a + b * mx)) ^ 2 + about 2 my (ysOf l) - 2 * b * coabout mx my l
        + b ^ 2 * about 2 mx (xsOf l)
        + 2 * (my - (a + b * mx)) * (about 1 my (ysOf l) - b * about 1 mx (xsOf l)) := by
    intro mx my l
    induction l with
    | nil => simp [sse]
    | cons p l ih =>
      have : sse a b (p :: l) = (p.2 - (a + b * p.1)) ^ 2 + sse a b l := by simp [sse]
      rw [this, ih]
      simp only [List.length_cons, ysOf_cons, xsOf_cons, about_cons, coabout_cons]
      push_cast; ring
  rw [gen (mean (xsOf ps)) (mean (ysOf ps)) ps, ← central_eq_about, ← central_eq_about,
    ← central_eq_about, ← central_eq_about, central_one, central_one, ← cosum_eq_coabout]
  ring

/-- A line through the centroid whose slope satisfies the normal equation minimises the residuals. -/
theorem sse_min {a b : ℝ} {ps : List (ℝ × ℝ)} (ha : a + b * mean (xsOf ps) = mean (ysOf ps))
    (hb : b * central 2 (xsOf ps) = cosum ps) (a' b' : ℝ) : sse a b ps ≤ sse a' b' ps := by
  rw [sse_eq, sse_eq, ha, ← hb]
  have h1 := central_two_nonneg (xsOf ps)
  have h2 : (0 : ℝ) ≤ ps.length := by positivity
  have h3 := mul_nonneg h2 (sq_nonneg (mean (ysOf ps) - (a' + b' * mean (xsOf ps))))
  have h4 := mul_nonneg h1 (sq_nonneg (b - b'))
  nlinarith

/-- If at least two `x` differ, the minimising line is unique. -/
theorem sse_min_unique {a b : ℝ} {ps : List (ℝ × ℝ)} (hne : ps ≠ [])
    (ha : a + b * mean (xsOf ps) = mean (ysOf ps))
    (hb : b * central 2 (xsOf ps) = cosum ps) (hx : central 2 (xsOf ps) ≠ 0) {a' b' : ℝ}
    (h : sse a' b' ps ≤ sse a b ps) : a' = a ∧ b' = b := by
  rw [sse_eq, sse_eq, ha, ← hb] at h
  have h1 : 0 < central 2 (xsOf ps) := lt_of_le_of_ne (central_two_nonneg _) (Ne.symm hx)
  have h2 : (0 : ℝ) < ps.length := length_pos hne
  have h3 : 0 ≤ (ps.length : ℝ) * (mean (ysOf ps) - (a' + b' * mean (xsOf ps))) ^ 2 :=
    mul_nonneg h2.le (sq_nonneg _)
  have h4 : 0 ≤ central 2 (xsOf ps) * (b - b') ^ 2 := mul_nonneg h1.le (sq_nonneg _)
  have e4 : central 2 (xsOf ps) * (b - b') ^ 2 = 0 := by nlinarith
  have e3 : (ps.length : ℝ) * (mean (ysOf ps) - (a' + b' * mean (xsOf ps))) ^ 2 = 0 := by nlinarith
  have eb : b - b' = 0 := by
    rcases mul_eq_zero.1 e4 with e | e
    · exact absurd e hx
    · exact pow_eq_zero_iff (two_ne_zero) |>.1 e
  have ea : mean (ysOf ps) - (a' + b' * mean (xsOf ps)) = 0 := by
    rcases mul_eq_zero.1 e3 with e | e
    · exact absurd e h2.ne'
    · exact pow_eq_zero_iff (two_ne_zero) |>.1 e
  have : b' = b := by linarith
  subst this
  exact ⟨by linarith, rfl⟩

theorem cosum_eq_zero_of {ps : List (ℝ × ℝ)} (h : central 2 (xsOf ps) = 0) : cosum ps = 0 := by
  have := cosum_sq_le ps
  rw [h, zero_mul] at this
  exact pow_eq_zero_iff (two_ne_zero) |>.1 (le_antisymm this (sq_nonneg _))

/-- Data on the line `y = a x + b`. -/
theorem mean_ys_of_line {a b : ℝ} {ps : List (ℝ × ℝ)} (hne : ps ≠ [])
    (h : ∀ p ∈ ps, p.2 = a * p.1 + b) : mean (ysOf ps) = a * mean (xsOf ps) + b := by
  have hs : ∀ l : List (ℝ × ℝ), (∀ p ∈ l, p.2 = a * p.1 + b) →
      (ysOf l).sum = a * (xsOf l).sum + l.length * b := by
    intro l hl
    induction l with
    | nil => simp
    | cons p l ih =>
      simp only [ysOf_cons, xsOf_cons, List.sum_cons, List.length_cons,
        ih (fun q hq => hl q (List.mem_cons_of_mem _ hq)), hl p List.mem_cons_self]
      push_cast; ring
  have hl := length_ne_zero hne
  rw [mean, mean, hs ps h, length_ysOf, length_xsOf]
  field_simp

theorem cosum_of_line {a b : ℝ} {ps : List (ℝ × ℝ)} (h : ∀ p ∈ ps, p.2 = a * p.1 + b) :
    cosum ps = a * central 2 (xsOf ps) := by
  rcases eq_or_ne ps [] with rfl | hne
  · simp
  · rw [cosum, mean_ys_of_line hne h, central, xsOf, List.map_map, ← List.sum_map_mul_left]
    congr 1
    apply List.map_congr_left
    intro p hp
    simp only [Function.comp_def]
    rw [h p hp]; ring

theorem central_ys_of_line {a b : ℝ} {ps : List (ℝ × ℝ)} (h : ∀ p ∈ ps, p.2 = a * p.1 + b) :
    central 2 (ysOf ps) = a ^ 2 * central 2 (xsOf ps) := by
  rcases eq_or_ne ps [] with rfl | hne
  · simp
  · rw [central, mean_ys_of_line hne h, central, xsOf, ysOf, List.map_map, List.map_map,
      ← List.sum_map_mul_left]
    congr 1
    apply List.map_congr_left
    intro p hp
    simp only [Function.comp_def]
    rw [h p hp]; ring

/-! ### Arithmetic progressions -/

theorem sum_progression (a d : ℝ) (n : Nat) :
    ((List.range n).map fun k : ℕ => a + k * d).sum = n * a + n * (n - 1) / 2 * d := by
  induction n with
  | zero => simp
  | succ n ih =>
    rw [List.range_succ, List.map_append, List.sum_append, ih]
    simp only [List.map_cons, List.map_nil, List.sum_cons, List.sum_nil]
    push_cast; ring

theorem mean_progression (a d : ℝ) {n : Nat} (hn : 1 ≤ n) :
    mean ((List.range n).map fun k : ℕ => a + k * d) = a + (n - 1) / 2 * d := by
  have : (n : ℝ) ≠ 0 := by
    have : n ≠ 0 := by omega
    exact_mod_cast this
  rw [mean, sum_progression, List.length_map, List.length_range]
  field_simp

theorem runningMeans_progression (a d : ℝ) (n : Nat) :
    runningMeans ((List.range n).map fun k : ℕ => a + k * d)
      = (List.range n).map fun k : ℕ => a + k * (d / 2) := by
  unfold runningMeans
  rw [List.length_map, List.length_range]
  apply List.map_congr_left
  intro k hk
  have hk' := List.mem_range.1 hk
  rw [← List.map_take, List.take_range, Nat.min_eq_left (by omega), mean_progression _ _ (by omega)]
  push_cast; ring

end Verif.Spec
