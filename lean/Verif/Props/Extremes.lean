import Verif.Props.Inequalities
/-
C193: the data for which the bounds on variance, deviations, kurtosis and correlation are attained.
-/
namespace Verif.Spec

theorem sum_map_eq_zero {β : Type} {f : β → ℝ} {l : List β} (h : ∀ x ∈ l, 0 ≤ f x) :
    (l.map f).sum = 0 ↔ ∀ x ∈ l, f x = 0 := by
  induction l with
  | nil => simp
  | cons y l ih =>
    have h1 := h y List.mem_cons_self
    have h2 : ∀ x ∈ l, 0 ≤ f x := fun x hx => h x (List.mem_cons_of_mem _ hx)
    have h3 : 0 ≤ (l.map f).sum := List.sum_nonneg (by
      intro z hz; obtain ⟨x, hx, rfl⟩ := List.mem_map.1 hz; exact h2 x hx)
    rw [List.map_cons, List.sum_cons, List.forall_mem_cons, ← ih h2]
    constructor
    · intro e; constructor <;> linarith
    · rintro ⟨e1, e2⟩; rw [e1, e2, add_zero]

/-- When the bound of Bhatia and Davis is attained. -/
theorem bhatia_davis_eq {lo hi : ℝ} {xs : List ℝ} (hne : xs ≠ []) (h : ∀ x ∈ xs, lo ≤ x ∧ x ≤ hi) :
    variance xs = (hi - mean xs) * (mean xs - lo) ↔ ∀ x ∈ xs, x = lo ∨ x = hi := by
  have hn := length_pos hne
  have h1 : about 1 (mean xs) xs = 0 := central_one xs
  have hs := sum_range_prod lo hi (mean xs) xs
  rw [h1, ← central_eq_about, mul_zero, add_zero] at hs
  have hz := sum_map_eq_zero (f := fun x => (hi - x) * (x - lo)) (l := xs) fun x hx =>
    mul_nonneg (by linarith [(h x hx).2]) (by linarith [(h x hx).1])
  have e : (∀ x ∈ xs, x = lo ∨ x = hi) ↔ ∀ x ∈ xs, (hi - x) * (x - lo) = 0 := by
    refine forall₂_congr fun x _ => ?_
    rw [mul_eq_zero, sub_eq_zero, sub_eq_zero, or_comm, eq_comm (a := hi)]
  rw [e, ← hz, hs, variance, div_eq_iff hn.ne']
  constructor <;> intro h <;> linarith

/-- When the bound of Popoviciu is attained. -/
theorem popoviciu_eq {lo hi : ℝ} {xs : List ℝ} (hne : xs ≠ []) (h : ∀ x ∈ xs, lo ≤ x ∧ x ≤ hi) :
    variance xs = (hi - lo) ^ 2 / 4 ↔ (∀ x ∈ xs, x = lo ∨ x = hi) ∧ 2 * mean xs = lo + hi := by
  rw [← bhatia_davis_eq hne h]
  have hb := bhatia_davis hne h
  have e : (hi - lo) ^ 2 / 4 = (hi - mean xs) * (mean xs - lo) + (2 * mean xs - (lo + hi)) ^ 2 / 4 := by ring
  rw [e]
  constructor
  · intro h0
    have h1 : (2 * mean xs - (lo + hi)) ^ 2 = 0 := by
      have := sq_nonneg (2 * mean xs - (lo + hi)); linarith
    rw [h1] at h0
    exact ⟨by linarith, by have := pow_eq_zero_iff (two_ne_zero) |>.1 h1; linarith⟩
  · rintro ⟨h0, h1⟩
    rw [h0, h1]; ring

/-- When the bound of Samuelson is attained. -/
theorem samuelson_eq {xs l r : List ℝ} {x : ℝ} (e : xs = l ++ x :: r) :
    (x - mean xs) ^ 2 = (xs.length - 1) * variance xs ↔ ∀ y ∈ l ++ r, ∀ z ∈ l ++ r, y = z := by
  have hne : xs ≠ [] := by rw [e]; simp
  have hn := length_pos hne
  have h1 : about 1 (mean xs) xs = 0 := central_one xs
  have a1 : about 1 (mean xs) (l ++ r) = -(x - mean xs) := by
    have : about 1 (mean xs) (l ++ x :: r) = 0 := by rw [← e]; exact h1
    rw [about_append, about_cons] at this
    rw [about_append]; linarith
  have a2 : about 2 (mean xs) (l ++ r) = central 2 xs - (x - mean xs) ^ 2 := by
    have : about 2 (mean xs) (l ++ x :: r) = central 2 xs := by rw [← e]; rfl
    rw [about_append, about_cons] at this
    rw [about_append]; linarith
  have hl : ((l ++ r).length : ℝ) = xs.length - 1 := by
    rw [e]; simp; ring
  generalize hd : x - mean xs = d at *
  have key : (d ^ 2 = (xs.length - 1) * variance xs) ↔ about 1 (mean xs) (l ++ r) ^ 2 = (l ++ r).length * about 2 (mean xs) (l ++ r) := by
    rw [a1, a2, hl, variance, mul_div_assoc', eq_div_iff hn.ne']
    constructor <;> intro h <;> linarith
  rw [key]
  clear key a1 a2 hl hd
  generalize mean xs = c
  generalize l ++ r = ys
  rcases eq_or_ne ys [] with rfl | hys
  · simp
  have hk := length_pos hys
  have h2 := about_two_shift c (about 1 c ys / ys.length) ys
  have e2 : about 2 c ys - 2 * (about 1 c ys / ys.length) * about 1 c ys
      + ys.length * (about 1 c ys / ys.length) ^ 2 = about 2 c ys - about 1 c ys ^ 2 / ys.length := by
    field_simp; ring
  rw [e2] at h2
  constructor
  · intro h y hy z hz
    rw [h, mul_div_cancel_left₀ _ hk.ne', sub_self, about_two_eq_zero] at h2
    rw [h2 y hy, h2 z hz]
  · intro h
    obtain ⟨y, hy⟩ := List.exists_mem_of_ne_nil _ hys
    have hc : ∀ z ∈ ys, z = y := fun z hz => h z hz y hy
    have f : ∀ k, about k c ys = ys.length * (y - c) ^ k := by
      intro k
      rw [about, List.map_congr_left (g := fun _ => (y - c) ^ k) (fun z hz => by rw [hc z hz])]
      simp
    rw [f, f]; ring

/-- The difference between the kurtosis and its bounds. -/
theorem kurtosis_gap {xs : List ℝ} (h2 : 0 < central 2 xs) :
    kurtosis xs - skewness xs ^ 2 - 1
        = xs.length / central 2 xs ^ 2 * (central 4 xs - central 3 xs ^ 2 / central 2 xs - central 2 xs ^ 2 / xs.length)
      ∧ kurtosis xs - 1 = xs.length / central 2 xs ^ 2 * (central 4 xs - central 2 xs ^ 2 / xs.length) := by
  have hne : xs ≠ [] := by rintro rfl; simp [central] at h2
  have hn := length_pos hne
  have hv : 0 < variance xs := div_pos h2 hn
  have hsq : (Real.sqrt (variance xs) ^ 3) ^ 2 = variance xs ^ 3 := by
    rw [← pow_mul, mul_comm 3 2, pow_mul, Real.sq_sqrt hv.le]
  rw [skewness, div_pow, hsq, kurtosis, variance]
  constructor <;> field_simp

/-- When the kurtosis is 1: all values have the same distance from the mean. -/
theorem kurtosis_eq_one {xs : List ℝ} (h2 : 0 < central 2 xs) :
    kurtosis xs = 1 ↔ ∀ x ∈ xs, ∀ y ∈ xs, |x - mean xs| = |y - mean xs| := by
  have hne : xs ≠ [] := by rintro rfl; simp [central] at h2
  have hn := length_pos hne
  have h1 : about 1 (mean xs) xs = 0 := central_one xs
  have hs : ∀ b, (xs.map fun x => ((x - mean xs) ^ 2 - 0 * (x - mean xs) - b) ^ 2).sum
      = (central 4 xs - central 2 xs ^ 2 / xs.length) + xs.length * (b - central 2 xs / xs.length) ^ 2 := by
    intro b
    rw [sum_poly, h1, ← central_eq_about, ← central_eq_about, ← central_eq_about]
    field_simp; ring
  have hz : ∀ b, (xs.map fun x => ((x - mean xs) ^ 2 - 0 * (x - mean xs) - b) ^ 2).sum = 0
      ↔ ∀ x ∈ xs, (x - mean xs) ^ 2 = b := by
    intro b
    rw [sum_map_eq_zero fun _ _ => sq_nonneg _]
    refine forall₂_congr fun x _ => ?_
    rw [pow_eq_zero_iff two_ne_zero]
    constructor <;> intro h <;> linarith
  have hg : kurtosis xs = 1 ↔ central 4 xs - central 2 xs ^ 2 / xs.length = 0 := by
    rw [← sub_eq_zero, (kurtosis_gap h2).2, mul_eq_zero, or_iff_right (by positivity)]
  have h0 : 0 ≤ central 4 xs - central 2 xs ^ 2 / xs.length := by
    have := hs (central 2 xs / xs.length)
    rw [sub_self, zero_pow two_ne_zero, mul_zero, add_zero] at this
    rw [← this]; exact sum_map_sq_nonneg _ _
  rw [hg]
  constructor
  · intro h x hx y hy
    have := hs (central 2 xs / xs.length)
    rw [sub_self, zero_pow two_ne_zero, mul_zero, add_zero, h, hz] at this
    rw [← sq_eq_sq_iff_abs_eq_abs, this x hx, this y hy]
  · intro h
    obtain ⟨y, hy⟩ := List.exists_mem_of_ne_nil _ hne
    have := hs ((y - mean xs) ^ 2)
    rw [(hz _).2 fun x hx => by rw [sq_eq_sq_iff_abs_eq_abs]; exact h x hx y hy] at this
    have h5 : 0 ≤ xs.length * ((y - mean xs) ^ 2 - central 2 xs / xs.length) ^ 2 := by positivity
    linarith

/-- When the kurtosis is 1 + skewness²: there are only two different values. -/
theorem pearson_eq {xs : List ℝ} (h2 : 0 < central 2 xs) :
    kurtosis xs = 1 + skewness xs ^ 2 ↔ ∃ a b : ℝ, ∀ x ∈ xs, x = a ∨ x = b := by
  have hne : xs ≠ [] := by rintro rfl; simp [central] at h2
  have hn := length_pos hne
  have h1 : about 1 (mean xs) xs = 0 := central_one xs
  have hs : ∀ a b, (xs.map fun x => ((x - mean xs) ^ 2 - a * (x - mean xs) - b) ^ 2).sum
      = (central 4 xs - central 3 xs ^ 2 / central 2 xs - central 2 xs ^ 2 / xs.length)
        + central 2 xs * (a - central 3 xs / central 2 xs) ^ 2 + xs.length * (b - central 2 xs / xs.length) ^ 2 := by
    intro a b
    rw [sum_poly, h1, ← central_eq_about, ← central_eq_about, ← central_eq_about]
    field_simp; ring
  have hz : ∀ a b, (xs.map fun x => ((x - mean xs) ^ 2 - a * (x - mean xs) - b) ^ 2).sum = 0
      ↔ ∀ x ∈ xs, (x - mean xs) ^ 2 - a * (x - mean xs) - b = 0 := by
    intro a b
    rw [sum_map_eq_zero fun _ _ => sq_nonneg _]
    exact forall₂_congr fun x _ => pow_eq_zero_iff two_ne_zero
  have hg : kurtosis xs = 1 + skewness xs ^ 2
      ↔ central 4 xs - central 3 xs ^ 2 / central 2 xs - central 2 xs ^ 2 / xs.length = 0 := by
    rw [show kurtosis xs = 1 + skewness xs ^ 2 ↔ kurtosis xs - skewness xs ^ 2 - 1 = 0 by
      constructor <;> intro h <;> linarith, (kurtosis_gap h2).1, mul_eq_zero, or_iff_right (by positivity)]
  have h0 : 0 ≤ central 4 xs - central 3 xs ^ 2 / central 2 xs - central 2 xs ^ 2 / xs.length := by
    have := hs (central 3 xs / central 2 xs) (central 2 xs / xs.length)
    rw [sub_self, sub_self, zero_pow two_ne_zero, mul_zero, mul_zero, add_zero, add_zero] at this
    rw [← this]; exact sum_map_sq_nonneg _ _
  rw [hg]
  constructor
  · intro h
    have := hs (central 3 xs / central 2 xs) (central 2 xs / xs.length)
    rw [sub_self, sub_self, zero_pow two_ne_zero, mul_zero, mul_zero, add_zero, add_zero, h, hz] at this
    have hb : 0 ≤ central 2 xs / xs.length := by positivity
    generalize central 3 xs / central 2 xs = a at this
    generalize central 2 xs / xs.length = b at this hb
    have hD : 0 ≤ a ^ 2 + 4 * b := by positivity
    have hr := Real.sq_sqrt hD
    refine ⟨mean xs + (a - Real.sqrt (a ^ 2 + 4 * b)) / 2, mean xs + (a + Real.sqrt (a ^ 2 + 4 * b)) / 2, fun x hx => ?_⟩
    have hx := this x hx
    have : (x - (mean xs + (a - Real.sqrt (a ^ 2 + 4 * b)) / 2)) * (x - (mean xs + (a + Real.sqrt (a ^ 2 + 4 * b)) / 2)) = 0 := by
      have e : (x - (mean xs + (a - Real.sqrt (a ^ 2 + 4 * b)) / 2)) * (x - (mean xs + (a + Real.sqrt (a ^ 2 + 4 * b)) / 2))
        = (x - mean xs) ^ 2 - a * (x - mean xs) + (a ^ 2 - Real.sqrt (a ^ 2 + 4 * b) ^ 2) / 4 := by ring
      rw [e, hr]; linarith
    rcases mul_eq_zero.1 this with h | h
    · left; linarith
    · right; linarith
  · rintro ⟨lo, hi, h⟩
    have := hs (lo + hi - 2 * mean xs) (-((lo - mean xs) * (hi - mean xs)))
    rw [(hz _ _).2 fun x hx => by rcases h x hx with rfl | rfl <;> ring] at this
    have h5 : 0 ≤ central 2 xs * (lo + hi - 2 * mean xs - central 3 xs / central 2 xs) ^ 2 := by positivity
    have h6 : 0 ≤ xs.length * (-((lo - mean xs) * (hi - mean xs)) - central 2 xs / xs.length) ^ 2 := by positivity
    linarith

end Verif.Spec

namespace Verif.Props
open Scalar Exact Cumulative

variable {w N : Nat} {ε : ℝ}

/-- C193: the variance is `(hi - mean)(mean - lo)` if and only if every value is `lo` or `hi`; it is a quarter of
the squared range if and only if moreover the mean is in the middle. -/
theorem C193_variance (ops : List (Op ℝ)) (h : (sinceClear ops).length < 2 ^ w) (hne : sinceClear ops ≠ [])
    {lo hi : ℝ} (hb : ∀ x ∈ sinceClear ops, lo ≤ x ∧ x ≤ hi) :
    ∃ m v : ℝ, (Variance.run (finOps ops) : Variance w (E ε)).getMean = X.fin m
      ∧ (Variance.run (finOps ops) : Variance w (E ε)).variance = X.fin v
      ∧ (v = (hi - m) * (m - lo) ↔ ∀ x ∈ sinceClear ops, x = lo ∨ x = hi)
      ∧ (v = (hi - lo) ^ 2 / 4 ↔ (∀ x ∈ sinceClear ops, x = lo ∨ x = hi) ∧ 2 * m = lo + hi) :=
  ⟨Spec.mean (sinceClear ops), Spec.variance (sinceClear ops), ((C01_mean_inherited _).1.1).trans (C01_mean ops h).1,
    ((C02_variance ops h).1 (List.length_pos_iff.2 hne)).1, Spec.bhatia_davis_eq hne hb, Spec.popoviciu_eq hne hb⟩

open Window in
/-- C193, window filter: the variance attains its bounds if and only if the values in the window are `lo` and `hi`. -/
theorem C193_window (hN : 1 ≤ N) (ops : List (Op ℝ)) (hne : sinceClear ops ≠ [])
    {lo hi : ℝ} (hb : ∀ x ∈ Spec.lastN N (sinceClear ops), lo ≤ x ∧ x ≤ hi) :
    ∃ (s : Window.Variance N (E ε)) (m v : ℝ), Window.Variance.run (finOps ops) = some s
      ∧ s.getMean = X.fin m ∧ s.variance = X.fin v
      ∧ (v = (hi - m) * (m - lo) ↔ ∀ x ∈ Spec.lastN N (sinceClear ops), x = lo ∨ x = hi)
      ∧ (v = (hi - lo) ^ 2 / 4 ↔ (∀ x ∈ Spec.lastN N (sinceClear ops), x = lo ∨ x = hi) ∧ 2 * m = lo + hi) := by
  have hl : Spec.lastN N (sinceClear ops) ≠ [] := by
    have := List.length_pos_iff.2 hne
    apply List.length_pos_iff.1; rw [Spec.length_lastN]; omega
  obtain ⟨s, hs, hv, -⟩ := C19_window_variance (ε := ε) hN ops
  obtain ⟨s', m, hs', hm, hg, hsz, -⟩ := C18_window_mean_inherited (N := N) hN (finOps ops : List (Op (E ε)))
  rw [hs] at hs'; cases hs'
  obtain ⟨m', hm', hgm⟩ := C18_window_mean (ε := ε) hN ops
  rw [hm] at hm'; cases hm'
  exact ⟨s, _, _, hs, hg.trans hgm, hv (List.length_pos_iff.2 hl), Spec.bhatia_davis_eq hl hb, Spec.popoviciu_eq hl hb⟩

/-- C193: the values `l`, `x`, `r`: the deviation of `x` is `sqrt((n-1) variance)` if and only if all other values
are equal. -/
theorem C193_deviation (ops : List (Op ℝ)) (h : (sinceClear ops).length < 2 ^ w) {l r : List ℝ} {x : ℝ}
    (e : sinceClear ops = l ++ x :: r) :
    ∃ m v : ℝ, (Variance.run (finOps ops) : Variance w (E ε)).getMean = X.fin m
      ∧ (Variance.run (finOps ops) : Variance w (E ε)).variance = X.fin v
      ∧ ((x - m) ^ 2 = ((sinceClear ops).length - 1) * v ↔ ∀ y ∈ l ++ r, ∀ z ∈ l ++ r, y = z) :=
  ⟨Spec.mean (sinceClear ops), Spec.variance (sinceClear ops), ((C01_mean_inherited _).1.1).trans (C01_mean ops h).1,
    ((C02_variance ops h).1 (by rw [e]; simp; omega)).1, Spec.samuelson_eq e⟩

/-- C193: above the cut-off, the kurtosis is 1 if and only if all values have the same distance from the mean. If the
skewness is above its cut-off too, the kurtosis is `1 + skewness²` if and only if there are only two different values. -/
theorem C193_kurtosis (hε : 0 < ε) (ops : List (Op ℝ))
    (h : (sinceClear ops).length * (sinceClear ops).length < 2 ^ w) (h4 : ε ≤ Spec.central 4 (sinceClear ops)) :
    ∃ m g k : ℝ, (Kurtosis.run (finOps ops) : Kurtosis w (E ε)).getMean = X.fin m
      ∧ (Kurtosis.run (finOps ops) : Kurtosis w (E ε)).skewness = X.fin g
      ∧ (Kurtosis.run (finOps ops) : Kurtosis w (E ε)).kurtosis = X.fin k
      ∧ (k = 1 ↔ ∀ x ∈ sinceClear ops, ∀ y ∈ sinceClear ops, |x - m| = |y - m|)
      ∧ (ε ≤ Spec.central 3 (sinceClear ops) → (k = 1 + g ^ 2 ↔ ∃ a b : ℝ, ∀ x ∈ sinceClear ops, x = a ∨ x = b)) := by
  have hne : Spec.central 2 (sinceClear ops) ≠ 0 := by
    intro e
    rw [central_four_of_two e] at h4
    linarith
  have h2 : 0 < Spec.central 2 (sinceClear ops) := lt_of_le_of_ne (Spec.central_two_nonneg _) (Ne.symm hne)
  have hn : sinceClear ops ≠ [] := by rintro e; rw [e] at h2; simp [Spec.central] at h2
  have hlt : (sinceClear ops).length < 2 ^ w := by
    have : 1 ≤ (sinceClear ops).length := List.length_pos_iff.2 hn
    nlinarith
  refine ⟨Spec.mean (sinceClear ops), _, _, ((C01_mean_inherited _).1.2.2).trans (C01_mean ops hlt).1,
    (C03_skewness_inherited _).1.trans (skewness_result hε ops hlt), ((C04_kurtosis hε ops h).2 h4).1,
    Spec.kurtosis_eq_one h2, fun h3 => ?_⟩
  rw [if_neg (by linarith)]
  exact Spec.pearson_eq h2

/-- C193: above the cut-off, the correlation is 1 if and only if the points lie on a rising line, and -1 if and only if
they lie on a falling line. -/
theorem C193_correlation (hε : 0 < ε) (ops : List (Op (ℝ × ℝ))) (h : (sinceClear ops).length < 2 ^ w)
    (h1 : 1 ≤ (sinceClear ops).length)
    (hcut : ε ≤ Spec.variance (Spec.xsOf (sinceClear ops)) * Spec.variance (Spec.ysOf (sinceClear ops))) :
    ∃ r : ℝ, (Correlation.run (finOps2 ops) : Correlation w (E ε)).value = X.fin r
      ∧ (r = 1 ↔ ∃ a b : ℝ, 0 < b ∧ ∀ p ∈ sinceClear ops, p.2 = a + b * p.1)
      ∧ (r = -1 ↔ ∃ a b : ℝ, b < 0 ∧ ∀ p ∈ sinceClear ops, p.2 = a + b * p.1) := by
  have hn : (0 : ℝ) < (sinceClear ops).length := by exact_mod_cast h1
  obtain ⟨hx, hy⟩ := central_pos_of_cut hε hcut
  obtain ⟨r, b, b', hr, hb, -, hbr, -, f, hf, hsse⟩ := C86_slope_correlation (w := w) hε ops h h1 hcut
  obtain ⟨hsl, hat⟩ := regression_result (ε := ε) ops h h1
  rw [if_neg hx.ne'] at hsl hat
  rw [hb, X.fin_inj] at hsl
  have hfx : ∀ x, f x = Spec.mean (Spec.ysOf (sinceClear ops)) - b * (Spec.mean (Spec.xsOf (sinceClear ops)) - x) := by
    intro x
    have := (hf x).symm.trans (hat x)
    rw [X.fin_inj] at this
    rw [this, hsl]
  have hvx : 0 < Spec.variance (Spec.xsOf (sinceClear ops)) := div_pos hx (by rw [Spec.length_xsOf]; exact hn)
  have hvy : 0 < Spec.variance (Spec.ysOf (sinceClear ops)) := div_pos hy (by rw [Spec.length_ysOf]; exact hn)
  have hq : 0 < Real.sqrt (Spec.variance (Spec.ysOf (sinceClear ops)) / Spec.variance (Spec.xsOf (sinceClear ops))) :=
    Real.sqrt_pos.2 (by positivity)
  have two : ∃ p ∈ sinceClear ops, ∃ q ∈ sinceClear ops, p.1 ≠ q.1 := by
    by_contra hno
    push Not at hno
    refine hx.ne' ?_
    obtain ⟨p, hp⟩ := List.exists_mem_of_ne_nil _ (List.length_pos_iff.1 h1)
    have hc : Spec.xsOf (sinceClear ops) = List.replicate (sinceClear ops).length p.1 := by
      rw [List.eq_replicate_iff, Spec.length_xsOf]
      refine ⟨rfl, fun x hx => ?_⟩
      obtain ⟨q, hq, rfl⟩ := List.mem_map.1 hx
      exact hno q hq p hp
    rw [hc, Spec.central_eq_about, Spec.about_two_eq_zero]
    intro x hx
    rw [List.eq_of_mem_replicate hx, Spec.mean, List.sum_replicate, List.length_replicate, nsmul_eq_mul,
      mul_div_cancel_left₀ _ hn.ne']
  have line : r ^ 2 = 1 → ∀ p ∈ sinceClear ops, p.2
      = (Spec.mean (Spec.ysOf (sinceClear ops)) - b * Spec.mean (Spec.xsOf (sinceClear ops))) + b * p.1 := by
    intro h2 p hp
    rw [h2, sub_self, mul_zero, Spec.sum_map_eq_zero fun _ _ => sq_nonneg _] at hsse
    have := pow_eq_zero_iff two_ne_zero |>.1 (hsse p hp)
    rw [hfx] at this
    linarith
  have conv : ∀ a b : ℝ, b ≠ 0 → (∀ p ∈ sinceClear ops, p.2 = a + b * p.1) → r = (SignType.sign b : ℝ) := by
    intro a b hb hp
    have := C11_linear_partial (w := w) hε ops b a h hb (fun p hp' => by rw [hp p hp']; ring) two (Or.inr hcut)
    rw [hr, X.fin_inj] at this
    exact this
  refine ⟨r, hr, ⟨fun e => ⟨_, b, by rw [hbr, e]; linarith, line (by rw [e]; norm_num)⟩, ?_⟩,
    ⟨fun e => ⟨_, b, by rw [hbr, e]; linarith, line (by rw [e]; norm_num)⟩, ?_⟩⟩
  · rintro ⟨a, b, hb, hp⟩
    rw [conv a b hb.ne' hp, sign_pos hb]; simp
  · rintro ⟨a, b, hb, hp⟩
    rw [conv a b hb.ne hp, sign_neg hb]; simp

/-- The correlation of (0, 0), (1, 1), (2, 1) is not 1. -/
example (hε : 0 < ε) (hε1 : ε ≤ 1 / 9) :
    (Correlation.run (finOps2 [.push (0, 0), .push (1, 1), .push (2, 1)]) : Correlation 64 (E ε)).value ≠ X.fin 1 := by
  have e : sinceClear [.push (0, 0), .push (1, 1), .push (2, 1)] = ([(0, 0), (1, 1), (2, 1)] : List (ℝ × ℝ)) := rfl
  obtain ⟨r, h1, h2, -⟩ := C193_correlation (w := 64) hε [.push (0, 0), .push (1, 1), .push (2, 1)] (by rw [e]; simp)
    (by rw [e]; simp) (by rw [e]; simp [Spec.variance, Spec.central, Spec.mean, Spec.xsOf, Spec.ysOf]; norm_num; linarith)
  rw [h1, Ne, X.fin_inj, h2, e]
  rintro ⟨a, b, -, h⟩
  have p1 := h (0, 0) (by simp)
  have p2 := h (1, 1) (by simp)
  have p3 := h (2, 1) (by simp)
  simp only at p1 p2 p3
  linarith

/-- The kurtosis of 0, 0, 2, 2 is 1. -/
example (hε : 0 < ε) (hε1 : ε ≤ 1) :
    (Kurtosis.run (finOps [.push 0, .push 0, .push 2, .push 2]) : Kurtosis 64 (E ε)).kurtosis = X.fin 1 := by
  have e : sinceClear [.push 0, .push 0, .push 2, .push 2] = ([0, 0, 2, 2] : List ℝ) := rfl
  obtain ⟨m, g, k, h1, -, h3, h4, -⟩ := C193_kurtosis (w := 64) hε [.push 0, .push 0, .push 2, .push 2] (by rw [e]; simp)
    (by rw [e]; simp [Spec.central, Spec.mean]; norm_num; linarith)
  have hm : m = 1 := by
    have := h1.symm.trans (((C01_mean_inherited _).1.2.2).trans (C01_mean (w := 64) _ (by rw [e]; simp)).1)
    rw [X.fin_inj, e] at this
    rw [this]; norm_num [Spec.mean]
  rw [h3, X.fin_inj, h4, e, hm]
  norm_num

end Verif.Props
