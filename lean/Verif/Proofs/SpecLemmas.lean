import Verif.Spec
import Mathlib.Tactic.Ring
import Mathlib.Tactic.Linarith
import Mathlib.Tactic.FieldSimp
/-
Lemmas on the specifications (nothing here refers to the model).
-/
namespace Verif.Spec

/-- Sum of the `k`-th powers of the deviations from `c`. -/
noncomputable def about (k : Nat) (c : ℝ) (xs : List ℝ) : ℝ := (xs.map fun x => (x - c) ^ k).sum

theorem central_eq_about (k : Nat) (xs : List ℝ) : central k xs = about k (mean xs) xs := rfl

@[simp] theorem about_nil (k : Nat) (c : ℝ) : about k c [] = 0 := rfl
@[simp] theorem about_cons (k : Nat) (c x : ℝ) (xs : List ℝ) :
    about k c (x :: xs) = (x - c) ^ k + about k c xs := by simp [about]
theorem about_append (k : Nat) (c : ℝ) (xs ys : List ℝ) :
    about k c (xs ++ ys) = about k c xs + about k c ys := by simp [about]

theorem about_one (c : ℝ) (xs : List ℝ) : about 1 c xs = xs.sum - xs.length * c := by
  induction xs with
  | nil => simp
  | cons x xs ih => rw [about_cons, ih]; simp; ring

theorem about_two_shift (c d : ℝ) (xs : List ℝ) :
    about 2 (c + d) xs = about 2 c xs - 2 * d * about 1 c xs + xs.length * d ^ 2 := by
  induction xs with
  | nil => simp
  | cons x xs ih => simp only [about_cons, ih, List.length_cons]; push_cast; ring

theorem about_three_shift (c d : ℝ) (xs : List ℝ) :
    about 3 (c + d) xs = about 3 c xs - 3 * d * about 2 c xs + 3 * d ^ 2 * about 1 c xs
      - xs.length * d ^ 3 := by
  induction xs with
  | nil => simp
  | cons x xs ih => simp only [about_cons, ih, List.length_cons]; push_cast; ring

theorem about_four_shift (c d : ℝ) (xs : List ℝ) :
    about 4 (c + d) xs = about 4 c xs - 4 * d * about 3 c xs + 6 * d ^ 2 * about 2 c xs
      - 4 * d ^ 3 * about 1 c xs + xs.length * d ^ 4 := by
  induction xs with
  | nil => simp
  | cons x xs ih => simp only [about_cons, ih, List.length_cons]; push_cast; ring

theorem sum_eq_mean_mul (xs : List ℝ) : xs.sum = mean xs * xs.length := by
  cases xs with
  | nil => simp
  | cons x xs =>
    have : ((x :: xs).length : ℝ) ≠ 0 := by simp; positivity
    rw [mean, div_mul_cancel₀ _ this]

@[simp] theorem central_nil (k : Nat) : central k [] = 0 := rfl
@[simp] theorem mean_nil : mean [] = 0 := by simp [mean]

theorem central_one (xs : List ℝ) : central 1 xs = 0 := by
  rw [central_eq_about, about_one, sum_eq_mean_mul]; ring

theorem mean_snoc (xs : List ℝ) (x : ℝ) :
    mean (xs ++ [x]) = mean xs + (x - mean xs) / (xs.length + 1) := by
  have h : (xs.length : ℝ) + 1 ≠ 0 := by positivity
  have e : mean (xs ++ [x]) = (xs.sum + x) / (xs.length + 1) := by simp [mean]
  rw [e, sum_eq_mean_mul]
  field_simp
  ring

theorem central_two_snoc (xs : List ℝ) (x : ℝ) :
    central 2 (xs ++ [x]) = central 2 xs + (x - mean xs) * (x - mean (xs ++ [x])) := by
  have h : (xs.length : ℝ) + 1 ≠ 0 := by positivity
  rw [central_eq_about, mean_snoc, about_append, about_two_shift, ← central_eq_about,
    ← central_eq_about, central_one]
  simp only [about_cons, about_nil]
  field_simp
  ring

theorem central_three_snoc (xs : List ℝ) (x : ℝ) :
    central 3 (xs ++ [x]) = central 3 xs +
      ((x - mean xs) * ((x - mean xs) / (xs.length + 1)) * xs.length * (xs.length - 1)
        - 3 * central 2 xs) * ((x - mean xs) / (xs.length + 1)) := by
  have h : (xs.length : ℝ) + 1 ≠ 0 := by positivity
  rw [central_eq_about, mean_snoc, about_append, about_three_shift, ← central_eq_about,
    ← central_eq_about, ← central_eq_about, central_one]
  simp only [about_cons, about_nil]
  field_simp
  ring

theorem central_four_snoc (xs : List ℝ) (x : ℝ) :
    central 4 (xs ++ [x]) = central 4 xs +
      (((x - mean xs) * ((x - mean xs) / (xs.length + 1)) * xs.length
          * ((xs.length + 1) ^ 2 - 3 * (xs.length + 1) + 3)
        + 6 * central 2 xs) * ((x - mean xs) / (xs.length + 1))
        - 4 * central 3 xs) * ((x - mean xs) / (xs.length + 1)) := by
  have h : (xs.length : ℝ) + 1 ≠ 0 := by positivity
  rw [central_eq_about, mean_snoc, about_append, about_four_shift, ← central_eq_about,
    ← central_eq_about, ← central_eq_about, ← central_eq_about, central_one]
  simp only [about_cons, about_nil]
  field_simp
  ring

theorem about_even_nonneg (k : Nat) (hk : Even k) (c : ℝ) (xs : List ℝ) : 0 ≤ about k c xs :=
  List.sum_nonneg (by
    intro y hy
    obtain ⟨x, _, rfl⟩ := List.mem_map.1 hy
    exact hk.pow_nonneg _)

theorem central_two_nonneg (xs : List ℝ) : 0 ≤ central 2 xs :=
  about_even_nonneg 2 (by decide) _ _
theorem central_four_nonneg (xs : List ℝ) : 0 ≤ central 4 xs :=
  about_even_nonneg 4 (by decide) _ _

theorem about_two_eq_zero (c : ℝ) (xs : List ℝ) : about 2 c xs = 0 ↔ ∀ x ∈ xs, x = c := by
  induction xs with
  | nil => simp
  | cons x xs ih =>
    have h1 : 0 ≤ (x - c) ^ 2 := sq_nonneg _
    have h2 := about_even_nonneg 2 (by decide) c xs
    rw [about_cons, add_eq_zero_iff_of_nonneg h1 h2, ih]
    simp [sub_eq_zero]

theorem mean_const {c : ℝ} {xs : List ℝ} (hne : xs ≠ []) (h : ∀ x ∈ xs, x = c) : mean xs = c := by
  have : xs = List.replicate xs.length c := List.eq_replicate_iff.2 ⟨rfl, h⟩
  have hl : (xs.length : ℝ) ≠ 0 := by
    simpa using hne
  rw [mean, this]
  simp [List.sum_replicate]
  field_simp

/-- The sum of squared deviations is zero exactly when all values are equal. -/
theorem central_two_eq_zero (xs : List ℝ) :
    central 2 xs = 0 ↔ ∀ x ∈ xs, ∀ y ∈ xs, x = y := by
  rw [central_eq_about, about_two_eq_zero]
  constructor
  · intro h x hx y hy; rw [h x hx, h y hy]
  · intro h x hx
    exact (mean_const (List.ne_nil_of_mem hx) (fun y hy => h y hy x hx)).symm

/-! ### Pairs -/

/-- Sum of products of deviations from `a` and `b`. -/
noncomputable def coabout (a b : ℝ) (ps : List (ℝ × ℝ)) : ℝ :=
  (ps.map fun p => (p.1 - a) * (p.2 - b)).sum

theorem cosum_eq_coabout (ps : List (ℝ × ℝ)) :
    cosum ps = coabout (mean (xsOf ps)) (mean (ysOf ps)) ps := rfl

@[simp] theorem coabout_nil (a b : ℝ) : coabout a b [] = 0 := rfl
@[simp] theorem coabout_cons (a b : ℝ) (p : ℝ × ℝ) (ps : List (ℝ × ℝ)) :
    coabout a b (p :: ps) = (p.1 - a) * (p.2 - b) + coabout a b ps := by simp [coabout]
theorem coabout_append (a b : ℝ) (ps qs : List (ℝ × ℝ)) :
    coabout a b (ps ++ qs) = coabout a b ps + coabout a b qs := by simp [coabout]

@[simp] theorem cosum_nil : cosum [] = 0 := rfl
@[simp] theorem xsOf_nil : xsOf [] = [] := rfl
@[simp] theorem ysOf_nil : ysOf [] = [] := rfl
@[simp] theorem xsOf_cons (p : ℝ × ℝ) (ps : List (ℝ × ℝ)) : xsOf (p :: ps) = p.1 :: xsOf ps := rfl
@[simp] theorem ysOf_cons (p : ℝ × ℝ) (ps : List (ℝ × ℝ)) : ysOf (p :: ps) = p.2 :: ysOf ps := rfl
@[simp] theorem xsOf_append (ps qs : List (ℝ × ℝ)) : xsOf (ps ++ qs) = xsOf ps ++ xsOf qs := by
  simp [xsOf]
@[simp] theorem ysOf_append (ps qs : List (ℝ × ℝ)) : ysOf (ps ++ qs) = ysOf ps ++ ysOf qs := by
  simp [ysOf]
@[simp] theorem length_xsOf (ps : List (ℝ × ℝ)) : (xsOf ps).length = ps.length := by simp [xsOf]
@[simp] theorem length_ysOf (ps : List (ℝ × ℝ)) : (ysOf ps).length = ps.length := by simp [ysOf]

theorem coabout_shift (a b d e : ℝ) (ps : List (ℝ × ℝ)) :
    coabout (a + d) (b + e) ps = coabout a b ps - d * about 1 b (ysOf ps) - e * about 1 a (xsOf ps)
      + ps.length * d * e := by
  induction ps with
  | nil => simp
  | cons p ps ih =>
    simp only [coabout_cons, ih, List.length_cons, xsOf_cons, ysOf_cons, about_cons]
    push_cast; ring

theorem cosum_snoc (ps : List (ℝ × ℝ)) (p : ℝ × ℝ) :
    cosum (ps ++ [p]) = cosum ps
      + (p.1 - mean (xsOf (ps ++ [p]))) * (p.2 - mean (ysOf ps)) := by
  have h : (ps.length : ℝ) + 1 ≠ 0 := by positivity
  have hx : mean (xsOf (ps ++ [p])) = mean (xsOf ps) + (p.1 - mean (xsOf ps)) / (ps.length + 1) := by
    simp [mean_snoc]
  have hy : mean (ysOf (ps ++ [p])) = mean (ysOf ps) + (p.2 - mean (ysOf ps)) / (ps.length + 1) := by
    simp [mean_snoc]
  rw [cosum_eq_coabout, hx, hy, coabout_append, coabout_shift, ← central_eq_about,
    ← central_eq_about, central_one, central_one, cosum_eq_coabout]
  simp only [coabout_cons, coabout_nil]
  field_simp
  ring

theorem runningMeans_snoc (xs : List ℝ) (x : ℝ) :
    runningMeans (xs ++ [x]) = runningMeans xs ++ [mean (xs ++ [x])] := by
  unfold runningMeans
  rw [List.length_append, List.length_singleton, List.range_succ, List.map_append]
  congr 1
  · apply List.map_congr_left
    intro k hk
    rw [List.take_append_of_le_length (by simpa using Nat.succ_le_of_lt (List.mem_range.1 hk))]
  · simp only [List.map_cons, List.map_nil]
    rw [List.take_of_length_le (by simp)]

@[simp] theorem length_runningMeans (xs : List ℝ) : (runningMeans xs).length = xs.length := by
  simp [runningMeans]

end Verif.Spec
