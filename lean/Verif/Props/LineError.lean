import Verif.Props.InputError
/-
C189: regression and correlation of data with measurement errors in both variables.
-/
namespace Verif.Props
open Scalar Exact

variable {w N : Nat} {ε δ₁ δ₂ : ℝ} {β : Type}

/-- Covariance of two quantities that belong to the elements of a list. -/
noncomputable def cv (qs : List β) (u v : β → ℝ) : ℝ := Spec.covariance (qs.map fun q => (u q, v q))

theorem cv_left (qs : List β) (a b : ℝ) (u u' v : β → ℝ) : cv qs (fun q => a * u q + b * u' q) v = a * cv qs u v + b * cv qs u' v := by
  have mx := linear_mean a b (qs.map fun q => (u q, u' q))
  simp only [List.map_map, Function.comp_def] at mx
  simp only [cv, Spec.covariance, Spec.cosum, Spec.xsOf, Spec.ysOf, List.map_map, Function.comp_def, List.length_map, mx, ← mul_div_assoc, ← add_div]
  congr 1
  generalize Spec.mean _ = m
  generalize Spec.mean _ = n
  generalize Spec.mean _ = k
  clear mx
  induction qs with
  | nil => simp
  | cons q qs ih => simp only [List.map_cons, List.sum_cons, ih]; ring

theorem cv_symm (qs : List β) (u v : β → ℝ) : cv qs u v = cv qs v u := by
  rw [cv, cv, Spec.covariance, Spec.covariance, ← Spec.cosum_swap, List.map_map, List.length_map, List.length_map]
  rfl

theorem cv_right (qs : List β) (a b : ℝ) (u v v' : β → ℝ) : cv qs u (fun q => a * v q + b * v' q) = a * cv qs u v + b * cv qs u v' := by
  rw [cv_symm, cv_left, cv_symm qs v, cv_symm qs v']

theorem cv_self (qs : List β) (u : β → ℝ) : cv qs u u = Spec.variance (qs.map u) := by
  have := Spec.cosum_diag (qs.map u)
  rw [List.map_map] at this
  rw [cv, Spec.covariance, Spec.variance, List.length_map, List.length_map, ← this]
  rfl

theorem abs_cv_le (qs : List β) (u v : β → ℝ) : |cv qs u v| ≤ √(cv qs u u) * √(cv qs v v) := by
  have h := covariance_sq_le (qs.map fun q => (u q, v q))
  simp only [Spec.xsOf, Spec.ysOf, List.map_map, Function.comp_def] at h
  rw [cv_self, cv_self, ← Real.sqrt_mul (variance_nonneg _), ← Real.sqrt_sq_eq_abs]
  exact Real.sqrt_le_sqrt h

theorem cv_nonneg (qs : List β) (u : β → ℝ) : 0 ≤ cv qs u u := by rw [cv_self]; exact variance_nonneg _

/-- The slope of the code: 0 when all `x` are equal. -/
noncomputable def cvSlope (qs : List β) (x y : β → ℝ) : ℝ := if cv qs x x = 0 then 0 else cv qs x y / cv qs x x

theorem cv_residual (qs : List β) (x y : β → ℝ) : cv qs x y = cvSlope qs x y * cv qs x x := by
  rw [cvSlope]
  split_ifs with h
  · have := abs_cv_le qs x y
    rw [h, Real.sqrt_zero, zero_mul] at this
    rw [zero_mul]
    exact abs_nonpos_iff.1 this
  · rw [div_mul_cancel₀ _ h]

/-- The bound for the slope. -/
theorem slope_measured {qs : List β} {x y x' y' : β → ℝ} (h1 : √(cv qs (fun q => (-1) * x q + 1 * x' q) (fun q => (-1) * x q + 1 * x' q)) ≤ δ₁)
    (h2 : √(cv qs (fun q => (-1) * y q + 1 * y' q) (fun q => (-1) * y q + 1 * y' q)) ≤ δ₂) (hv : 0 < cv qs x' x') :
    |cvSlope qs x' y' - cvSlope qs x y|
      ≤ (δ₁ * √(cv qs y y) / √(cv qs x' x') + |cvSlope qs x y| * δ₁ + δ₂) / √(cv qs x' x') := by
  set k := cvSlope qs x y with hk
  set k' := cvSlope qs x' y' with hk'
  set d : β → ℝ := fun q => (-1) * x q + 1 * x' q with hd
  set e : β → ℝ := fun q => (-1) * y q + 1 * y' q with he
  set r : β → ℝ := fun q => 1 * y q + (-k) * x q with hr
  have hδ1 : 0 ≤ δ₁ := (Real.sqrt_nonneg _).trans h1
  have hs : 0 < √(cv qs x' x') := Real.sqrt_pos.2 hv
  have hsq := Real.mul_self_sqrt hv.le
  have hxr : cv qs x r = 0 := by rw [hr, cv_right, cv_residual qs x y]; ring
  -- the residuals vary no more than `y`
  have hrr : cv qs r r ≤ cv qs y y := by
    have e1 : cv qs r r = 1 * cv qs y r + (-k) * cv qs x r := cv_left qs 1 (-k) y x r
    have e2 : cv qs y r = 1 * cv qs y y + (-k) * cv qs y x := cv_right qs 1 (-k) y y x
    rw [e1, e2, hxr, cv_symm qs y x, cv_residual qs x y]
    have := mul_nonneg (mul_self_nonneg k) (cv_nonneg qs x)
    linarith
  have key : (k' - k) * cv qs x' x' = cv qs d r - k * cv qs x' d + cv qs x' e := by
    have e1 : cv qs x' e = (-1) * cv qs x' y + 1 * cv qs x' y' := cv_right qs (-1) 1 x' y y'
    have e2 : cv qs x' d = (-1) * cv qs x' x + 1 * cv qs x' x' := cv_right qs (-1) 1 x' x x'
    have e3 : cv qs d r = (-1) * cv qs x r + 1 * cv qs x' r := cv_left qs (-1) 1 x x' r
    have e4 : cv qs x' r = 1 * cv qs x' y + (-k) * cv qs x' x := cv_right qs 1 (-k) x' y x
    have e5 := cv_residual qs x' y'
    rw [e1, e2, e3, e4, hxr, e5]
    ring
  have b1 : |cv qs d r| ≤ δ₁ * √(cv qs y y) :=
    (abs_cv_le qs d r).trans (mul_le_mul h1 (Real.sqrt_le_sqrt hrr) (Real.sqrt_nonneg _) hδ1)
  have b2 : |cv qs x' d| ≤ √(cv qs x' x') * δ₁ := (abs_cv_le qs x' d).trans (mul_le_mul_of_nonneg_left h1 hs.le)
  have b3 : |cv qs x' e| ≤ √(cv qs x' x') * δ₂ := (abs_cv_le qs x' e).trans (mul_le_mul_of_nonneg_left h2 hs.le)
  have b4 : |(k' - k) * cv qs x' x'| ≤ δ₁ * √(cv qs y y) + |k| * (√(cv qs x' x') * δ₁) + √(cv qs x' x') * δ₂ := by
    rw [key]
    refine (abs_add_le _ _).trans (add_le_add ((abs_sub _ _).trans (add_le_add b1 ?_)) b3)
    rw [abs_mul]
    exact mul_le_mul_of_nonneg_left b2 (abs_nonneg _)
  rw [abs_mul, abs_of_pos hv] at b4
  rw [le_div_iff₀ hs]
  have e : δ₁ * √(cv qs y y) / √(cv qs x' x') * √(cv qs x' x') = δ₁ * √(cv qs y y) := div_mul_cancel₀ _ hs.ne'
  refine le_of_mul_le_mul_right ?_ hs
  rw [mul_assoc, hsq, add_mul, add_mul, e]
  linarith

theorem Measured2.x {qs : List ((ℝ × ℝ) × (ℝ × ℝ))} (h : Measured2 δ₁ δ₂ qs) (hne : qs ≠ []) :
    √(cv qs (fun q => (-1) * q.1.1 + 1 * q.2.1) (fun q => (-1) * q.1.1 + 1 * q.2.1)) ≤ δ₁ := by
  have := sqrt_le_of_le_mul h.1.1 (PairData.variance_le (by simpa [errors] using hne) h.1.errors)
  rwa [errors, List.map_map, Function.comp_def, ← cv_self] at this

theorem Measured2.y {qs : List ((ℝ × ℝ) × (ℝ × ℝ))} (h : Measured2 δ₁ δ₂ qs) (hne : qs ≠ []) :
    √(cv qs (fun q => (-1) * q.1.2 + 1 * q.2.2) (fun q => (-1) * q.1.2 + 1 * q.2.2)) ≤ δ₂ := by
  have := sqrt_le_of_le_mul h.2.1 (PairData.variance_le (by simpa [errors] using hne) h.2.errors)
  rwa [errors, List.map_map, Function.comp_def, ← cv_self] at this

/-! ### Specification -/

/-- How far the slope can be from the slope `k` of the true data.  `sy` and `sx'` are the standard deviations of the true `y` and
the measured `x`. -/
noncomputable def Spec_slopeError (δ₁ δ₂ k sy sx' : ℝ) : ℝ := (δ₁ * sy / sx' + |k| * δ₁ + δ₂) / sx'

/-- How far the line at `z` can be; `m'` is the mean of the measured `x`. -/
noncomputable def Spec_lineError (δ₁ δ₂ k sy sx' m' z : ℝ) : ℝ := Spec_slopeError δ₁ δ₂ k sy sx' * |m' - z| + |k| * δ₁ + δ₂

theorem cvSlope_map (qs : List β) (u : β → ℝ × ℝ) :
    (if Spec.central 2 (Spec.xsOf (qs.map u)) = 0 then 0 else Spec.cosum (qs.map u) / Spec.central 2 (Spec.xsOf (qs.map u)))
      = cvSlope qs (fun q => (u q).1) fun q => (u q).2 := by
  rcases eq_or_ne qs [] with rfl | hne
  · simp [cvSlope, cv_self, Spec.variance, Spec.xsOf, Spec.central]
  · have hp : (0 : ℝ) < qs.length := by exact_mod_cast List.length_pos_iff.2 hne
    have e1 : cv qs (fun q => (u q).1) (fun q => (u q).1) = Spec.central 2 (Spec.xsOf (qs.map u)) / qs.length := by
      rw [cv_self, Spec.variance, List.length_map, Spec.xsOf, List.map_map]; rfl
    have e2 : cv qs (fun q => (u q).1) (fun q => (u q).2) = Spec.cosum (qs.map u) / qs.length := by
      rw [cv, Spec.covariance, List.length_map]
    rw [cvSlope, e1, e2, div_div_div_cancel_right₀ hp.ne']
    simp only [div_eq_zero_iff, hp.ne', or_false]

/-- The regression of measured pairs and of true pairs. -/
theorem regression_measured {qs : List ((ℝ × ℝ) × (ℝ × ℝ))} (hne : qs ≠ []) (hm : Measured2 δ₁ δ₂ qs)
    (hv : 0 < Spec.variance (Spec.xsOf (qs.map Prod.snd))) {k k' : ℝ}
    (hk : k = cvSlope qs (fun q => q.1.1) fun q => q.1.2) (hk' : k' = cvSlope qs (fun q => q.2.1) fun q => q.2.2) :
    |k' - k| ≤ Spec_slopeError δ₁ δ₂ k √(Spec.variance (Spec.ysOf (qs.map Prod.fst))) √(Spec.variance (Spec.xsOf (qs.map Prod.snd)))
    ∧ ∀ z : ℝ, |(Spec.mean (Spec.ysOf (qs.map Prod.snd)) - k' * (Spec.mean (Spec.xsOf (qs.map Prod.snd)) - z))
        - (Spec.mean (Spec.ysOf (qs.map Prod.fst)) - k * (Spec.mean (Spec.xsOf (qs.map Prod.fst)) - z))|
      ≤ Spec_lineError δ₁ δ₂ k √(Spec.variance (Spec.ysOf (qs.map Prod.fst))) √(Spec.variance (Spec.xsOf (qs.map Prod.snd)))
          (Spec.mean (Spec.xsOf (qs.map Prod.snd))) z := by
  simp only [Spec.xsOf, Spec.ysOf, List.map_map, Function.comp_def] at hv ⊢
  have h := slope_measured (hm.x hne) (hm.y hne) (by rw [cv_self]; exact hv)
  rw [← hk, ← hk', cv_self, cv_self] at h
  refine ⟨h, fun z => ?_⟩
  have ex : |Spec.mean (qs.map fun q => q.2.1) - Spec.mean (qs.map fun q => q.1.1)| ≤ δ₁ := by
    have := linear_error linear_mean (qs.map fun q => (q.1.1, q.2.1))
    simp only [List.map_map, Function.comp_def] at this
    rw [this]
    exact Window.abs_mean_le hm.1.1 hm.1.errors
  have ey : |Spec.mean (qs.map fun q => q.2.2) - Spec.mean (qs.map fun q => q.1.2)| ≤ δ₂ := by
    have := linear_error linear_mean (qs.map fun q => (q.1.2, q.2.2))
    simp only [List.map_map, Function.comp_def] at this
    rw [this]
    exact Window.abs_mean_le hm.2.1 hm.2.errors
  generalize Spec.mean (qs.map fun q => q.2.1) = a' at *
  generalize Spec.mean (qs.map fun q => q.1.1) = a at *
  generalize Spec.mean (qs.map fun q => q.2.2) = b' at *
  generalize Spec.mean (qs.map fun q => q.1.2) = b at *
  rw [show b' - k' * (a' - z) - (b - k * (a - z)) = -((k' - k) * (a' - z)) + -(k * (a' - a)) + (b' - b) by ring]
  refine (abs_add_three _ _ _).trans (add_le_add (add_le_add ?_ ?_) ey)
  · rw [abs_neg, abs_mul]; exact mul_le_mul_of_nonneg_right h (abs_nonneg _)
  · rw [abs_neg, abs_mul]; exact mul_le_mul_of_nonneg_left ex (abs_nonneg _)

theorem variance_spread {qs : List ((ℝ × ℝ) × (ℝ × ℝ))} (hx : ∃ p ∈ qs, ∃ q ∈ qs, p.2.1 ≠ q.2.1) :
    0 < Spec.variance (Spec.xsOf (qs.map Prod.snd)) := by
  obtain ⟨p, hp, q, hq, hpq⟩ := hx
  have mem : ∀ q ∈ qs, q.2.1 ∈ Spec.xsOf (qs.map Prod.snd) := fun q hq => List.mem_map_of_mem (List.mem_map_of_mem hq)
  refine div_pos (lt_of_le_of_ne (Spec.central_two_nonneg _) fun h => ?_) (by exact_mod_cast List.length_pos_of_mem (mem p hp))
  exact hpq ((Spec.central_two_eq_zero _).1 h.symm _ (mem p hp) _ (mem q hq))

/-! ### Regression -/

open Cumulative in
/-- C189: slope and line. -/
theorem C189_regression (ops : List (Op ((ℝ × ℝ) × (ℝ × ℝ)))) (h : (sinceClear ops).length < 2 ^ w) (h1 : 1 ≤ (sinceClear ops).length)
    (hm : Measured2 δ₁ δ₂ (sinceClear ops)) (hx : ∃ p ∈ sinceClear ops, ∃ q ∈ sinceClear ops, p.2.1 ≠ q.2.1) :
    ∃ k k' vy vx' m' : ℝ, (Regression.run (finOps2 (firsts ops)) : Regression w (E ε)).slope = X.fin k
      ∧ (Regression.run (finOps2 (seconds ops)) : Regression w (E ε)).slope = X.fin k'
      ∧ (Variance.run (finOps (seconds (firsts ops))) : Variance w (E ε)).variance = X.fin vy
      ∧ (Variance.run (finOps (firsts (seconds ops))) : Variance w (E ε)).variance = X.fin vx'
      ∧ (Mean.run (finOps (firsts (seconds ops))) : Mean w (E ε)).getMean = X.fin m' ∧ 0 < vx'
      ∧ |k' - k| ≤ Spec_slopeError δ₁ δ₂ k √vy √vx'
      ∧ ∀ z : ℝ, ∃ y y' : ℝ, (Regression.run (finOps2 (firsts ops)) : Regression w (E ε)).at' (X.fin z) = X.fin y
        ∧ (Regression.run (finOps2 (seconds ops)) : Regression w (E ε)).at' (X.fin z) = X.fin y'
        ∧ |y' - y| ≤ Spec_lineError δ₁ δ₂ k √vy √vx' m' z := by
  have hne := List.length_pos_iff.1 h1
  obtain ⟨r1, r2⟩ := regression_result (ε := ε) (firsts ops) (by rw [sinceClear_firsts, List.length_map]; exact h) (by rw [sinceClear_firsts, List.length_map]; exact h1)
  obtain ⟨t1, t2⟩ := regression_result (ε := ε) (seconds ops) (by rw [sinceClear_seconds, List.length_map]; exact h) (by rw [sinceClear_seconds, List.length_map]; exact h1)
  have v1 := ((C02_variance (ε := ε) (w := w) (seconds (firsts ops)) (by simpa [sinceClear_firsts, sinceClear_seconds] using h)).1
    (by simpa [sinceClear_firsts, sinceClear_seconds] using h1)).1
  have v2 := ((C02_variance (ε := ε) (w := w) (firsts (seconds ops)) (by simpa [sinceClear_firsts, sinceClear_seconds] using h)).1
    (by simpa [sinceClear_firsts, sinceClear_seconds] using h1)).1
  have mm := (C01_mean (ε := ε) (w := w) (firsts (seconds ops)) (by simpa [sinceClear_firsts, sinceClear_seconds] using h)).1
  simp only [sinceClear_firsts, sinceClear_seconds, cvSlope_map] at r1 r2 t1 t2 v1 v2 mm
  have hv := variance_spread hx
  obtain ⟨e1, e2⟩ := regression_measured hne hm hv rfl rfl
  exact ⟨_, _, _, _, _, r1, t1, v1, v2, mm, hv, e1, fun z => ⟨_, _, r2 z, t2 z, e2 z⟩⟩

open Window in
/-- C189: slope and line of a window; only the errors in the window count. -/
theorem C189_window_regression (hN : 1 ≤ N) (ops : List (Op ((ℝ × ℝ) × (ℝ × ℝ)))) (hm : Measured2 δ₁ δ₂ (Spec.lastN N (sinceClear ops)))
    (hx : ∃ p ∈ Spec.lastN N (sinceClear ops), ∃ q ∈ Spec.lastN N (sinceClear ops), p.2.1 ≠ q.2.1) :
    ∃ (s t : Regression N (E ε)) (a b : Variance N (E ε)) (c : Mean N (E ε)) (k k' vy vx' m' : ℝ),
      Regression.run (finOps2 (firsts ops)) = some s ∧ Regression.run (finOps2 (seconds ops)) = some t
      ∧ Variance.run (finOps (seconds (firsts ops))) = some a ∧ Variance.run (finOps (firsts (seconds ops))) = some b
      ∧ Mean.run (finOps (firsts (seconds ops))) = some c
      ∧ s.slope = X.fin k ∧ t.slope = X.fin k' ∧ a.variance = X.fin vy ∧ b.variance = X.fin vx' ∧ c.getMean = X.fin m' ∧ 0 < vx'
      ∧ |k' - k| ≤ Spec_slopeError δ₁ δ₂ k √vy √vx'
      ∧ ∀ z : ℝ, ∃ y y' : ℝ, s.at' (X.fin z) = X.fin y ∧ t.at' (X.fin z) = X.fin y' ∧ |y' - y| ≤ Spec_lineError δ₁ δ₂ k √vy √vx' m' z := by
  have hl : Spec.lastN N (sinceClear ops) ≠ [] := by
    obtain ⟨p, hp, -⟩ := hx
    exact List.ne_nil_of_mem hp
  have hne : sinceClear ops ≠ [] := by rintro h; simp [h, Spec.lastN] at hl
  have hp := List.length_pos_iff.2 hl
  obtain ⟨s, hs, -, r1, r2⟩ := window_regression_result (ε := ε) hN (firsts ops) (by rw [sinceClear_firsts]; simpa using hne)
  obtain ⟨t, ht, -, t1, t2⟩ := window_regression_result (ε := ε) hN (seconds ops) (by rw [sinceClear_seconds]; simpa using hne)
  obtain ⟨a, ha, hva, -⟩ := C19_window_variance (ε := ε) hN (seconds (firsts ops))
  obtain ⟨b, hb, hvb, -⟩ := C19_window_variance (ε := ε) hN (firsts (seconds ops))
  obtain ⟨c, hc, hmc⟩ := C18_window_mean (ε := ε) hN (firsts (seconds ops))
  simp only [sinceClear_firsts, sinceClear_seconds, Spec.lastN_map, List.length_map, cvSlope_map] at r1 r2 t1 t2 hva hvb hmc
  have hv := variance_spread hx
  obtain ⟨e1, e2⟩ := regression_measured hl hm hv rfl rfl
  exact ⟨s, t, a, b, c, _, _, _, _, _, hs, ht, ha, hb, hc, r1, t1, hva hp, hvb hp, hmc, hv, e1, fun z => ⟨_, _, r2 z, t2 z, e2 z⟩⟩

/-! ### Correlation -/

theorem normalized_measured {qs : List β} {x x' v : β → ℝ} {δ : ℝ}
    (h : √(cv qs (fun q => (-1) * x q + 1 * x' q) (fun q => (-1) * x q + 1 * x' q)) ≤ δ)
    (hs : |√(cv qs x' x') - √(cv qs x x)| ≤ δ) (hx : 0 < cv qs x x) (hx' : 0 < cv qs x' x') (hv : 0 < cv qs v v) :
    |cv qs x' v / (√(cv qs x' x') * √(cv qs v v)) - cv qs x v / (√(cv qs x x) * √(cv qs v v))| ≤ 2 * δ / √(cv qs x' x') := by
  have px := Real.sqrt_pos.2 hx
  have px' := Real.sqrt_pos.2 hx'
  have pv := Real.sqrt_pos.2 hv
  set d : β → ℝ := fun q => (-1) * x q + 1 * x' q with hd
  have e : cv qs d v = (-1) * cv qs x v + 1 * cv qs x' v := cv_left qs (-1) 1 x x' v
  have b1 := (abs_cv_le qs d v).trans (mul_le_mul_of_nonneg_right h pv.le)
  have b2 := abs_cv_le qs x v
  generalize √(cv qs x x) = s at *
  generalize √(cv qs x' x') = s' at *
  generalize √(cv qs v v) = t at *
  have e2 : cv qs x' v / (s' * t) - cv qs x v / (s * t) = (cv qs d v + cv qs x v / s * (s - s')) / (s' * t) := by
    rw [e]; field_simp; ring
  rw [e2, abs_div, abs_of_pos (mul_pos px' pv), div_le_div_iff₀ (mul_pos px' pv) px']
  have b3 : |cv qs x v / s * (s - s')| ≤ t * δ := by
    rw [abs_mul, abs_div, abs_of_pos px, abs_sub_comm]
    refine mul_le_mul ?_ hs (abs_nonneg _) pv.le
    rw [div_le_iff₀ px, mul_comm]
    exact b2
  have b4 := abs_add_le (cv qs d v) (cv qs x v / s * (s - s'))
  have b5 : |cv qs d v + cv qs x v / s * (s - s')| ≤ 2 * δ * t := by linarith
  calc _ ≤ 2 * δ * t * s' := mul_le_mul_of_nonneg_right b5 px'.le
    _ = _ := by ring

/-- The correlation coefficient. -/
noncomputable def cvCorrelation (qs : List β) (x y : β → ℝ) : ℝ := cv qs x y / (√(cv qs x x) * √(cv qs y y))

theorem cvCorrelation_symm (qs : List β) (x y : β → ℝ) : cvCorrelation qs x y = cvCorrelation qs y x := by
  rw [cvCorrelation, cvCorrelation, cv_symm, mul_comm]

theorem correlation_measured {qs : List β} {x y x' y' : β → ℝ}
    (h1 : √(cv qs (fun q => (-1) * x q + 1 * x' q) (fun q => (-1) * x q + 1 * x' q)) ≤ δ₁)
    (h2 : √(cv qs (fun q => (-1) * y q + 1 * y' q) (fun q => (-1) * y q + 1 * y' q)) ≤ δ₂)
    (s1 : |√(cv qs x' x') - √(cv qs x x)| ≤ δ₁) (s2 : |√(cv qs y' y') - √(cv qs y y)| ≤ δ₂)
    (hx : 0 < cv qs x x) (hx' : 0 < cv qs x' x') (hy : 0 < cv qs y y) (hy' : 0 < cv qs y' y') :
    |cvCorrelation qs x' y' - cvCorrelation qs x y| ≤ 2 * δ₁ / √(cv qs x' x') + 2 * δ₂ / √(cv qs y' y') := by
  have n1 : |cvCorrelation qs x' y' - cvCorrelation qs x y'| ≤ _ := normalized_measured h1 s1 hx hx' hy'
  have n2 : |cvCorrelation qs y' x - cvCorrelation qs y x| ≤ _ := normalized_measured h2 s2 hy hy' hx
  rw [cvCorrelation_symm qs y' x, cvCorrelation_symm qs y x] at n2
  exact (abs_sub_le _ (cvCorrelation qs x y') _).trans (add_le_add n1 n2)

/-- The correlation of measured pairs and of true pairs. -/
theorem correlation_pairs (hε : 0 < ε) {qs : List ((ℝ × ℝ) × (ℝ × ℝ))} (hne : qs ≠ []) (hm : Measured2 δ₁ δ₂ qs)
    (hc : ε ≤ Spec.variance (Spec.xsOf (qs.map Prod.fst)) * Spec.variance (Spec.ysOf (qs.map Prod.fst)))
    (hc' : ε ≤ Spec.variance (Spec.xsOf (qs.map Prod.snd)) * Spec.variance (Spec.ysOf (qs.map Prod.snd))) :
    |Spec.covariance (qs.map Prod.snd) / √(Spec.variance (Spec.xsOf (qs.map Prod.snd)) * Spec.variance (Spec.ysOf (qs.map Prod.snd)))
      - Spec.covariance (qs.map Prod.fst) / √(Spec.variance (Spec.xsOf (qs.map Prod.fst)) * Spec.variance (Spec.ysOf (qs.map Prod.fst)))|
      ≤ 2 * δ₁ / √(Spec.variance (Spec.xsOf (qs.map Prod.snd))) + 2 * δ₂ / √(Spec.variance (Spec.ysOf (qs.map Prod.snd))) := by
  have q1 := sqrt_variance_error (by simpa using hne) hm.1
  have q2 := sqrt_variance_error (by simpa using hne) hm.2
  rw [Real.sqrt_mul (variance_nonneg _), Real.sqrt_mul (variance_nonneg _)]
  have pos : ∀ {a b : ℝ}, 0 ≤ a → 0 ≤ b → ε ≤ a * b → 0 < a ∧ 0 < b := by
    intro a b ha hb hab
    have := hε.trans_le hab
    exact ⟨lt_of_le_of_ne ha fun h => by simp [← h] at this, lt_of_le_of_ne hb fun h => by simp [← h] at this⟩
  obtain ⟨p1, p2⟩ := pos (variance_nonneg _) (variance_nonneg _) hc
  obtain ⟨p1', p2'⟩ := pos (variance_nonneg _) (variance_nonneg _) hc'
  have ea : Spec.covariance (qs.map Prod.fst) = cv qs (fun q => q.1.1) fun q => q.1.2 := rfl
  have eb : Spec.covariance (qs.map Prod.snd) = cv qs (fun q => q.2.1) fun q => q.2.2 := rfl
  have e1 : Spec.variance (Spec.xsOf (qs.map Prod.fst)) = cv qs (fun q => q.1.1) fun q => q.1.1 := by rw [cv_self, Spec.xsOf, List.map_map]; rfl
  have e2 : Spec.variance (Spec.ysOf (qs.map Prod.fst)) = cv qs (fun q => q.1.2) fun q => q.1.2 := by rw [cv_self, Spec.ysOf, List.map_map]; rfl
  have e3 : Spec.variance (Spec.xsOf (qs.map Prod.snd)) = cv qs (fun q => q.2.1) fun q => q.2.1 := by rw [cv_self, Spec.xsOf, List.map_map]; rfl
  have e4 : Spec.variance (Spec.ysOf (qs.map Prod.snd)) = cv qs (fun q => q.2.2) fun q => q.2.2 := by rw [cv_self, Spec.ysOf, List.map_map]; rfl
  rw [List.map_map, List.map_map] at q1 q2
  rw [ea, eb, e1, e2, e3, e4]
  rw [e1] at p1
  rw [e2] at p2
  rw [e3] at p1'
  rw [e4] at p2'
  refine correlation_measured (hm.x hne) (hm.y hne) ?_ ?_ p1 p1' p2 p2'
  · rw [cv_self, cv_self]; exact q1
  · rw [cv_self, cv_self]; exact q2

open Cumulative in
/-- C189: the correlation of data above the cut-off of the filter. -/
theorem C189_correlation (hε : 0 < ε) (ops : List (Op ((ℝ × ℝ) × (ℝ × ℝ)))) (h : (sinceClear ops).length < 2 ^ w)
    (h1 : 1 ≤ (sinceClear ops).length) (hm : Measured2 δ₁ δ₂ (sinceClear ops)) :
    ∃ r r' vx vy vx' vy' : ℝ, (Correlation.run (finOps2 (firsts ops)) : Correlation w (E ε)).value = X.fin r
      ∧ (Correlation.run (finOps2 (seconds ops)) : Correlation w (E ε)).value = X.fin r'
      ∧ (Variance.run (finOps (firsts (firsts ops))) : Variance w (E ε)).variance = X.fin vx
      ∧ (Variance.run (finOps (seconds (firsts ops))) : Variance w (E ε)).variance = X.fin vy
      ∧ (Variance.run (finOps (firsts (seconds ops))) : Variance w (E ε)).variance = X.fin vx'
      ∧ (Variance.run (finOps (seconds (seconds ops))) : Variance w (E ε)).variance = X.fin vy'
      ∧ (ε ≤ vx * vy → ε ≤ vx' * vy' → |r' - r| ≤ 2 * δ₁ / √vx' + 2 * δ₂ / √vy') := by
  have hne := List.length_pos_iff.1 h1
  have c1 := correlation_result hε (firsts ops) (w := w) (by rw [sinceClear_firsts, List.length_map]; exact h) (by rw [sinceClear_firsts, List.length_map]; exact h1)
  have c2 := correlation_result hε (seconds ops) (w := w) (by rw [sinceClear_seconds, List.length_map]; exact h) (by rw [sinceClear_seconds, List.length_map]; exact h1)
  have var : ∀ (l : List (Op ℝ)) (xs : List ℝ), sinceClear l = xs → xs.length = (sinceClear ops).length →
      (Variance.run (finOps l) : Variance w (E ε)).variance = X.fin (Spec.variance xs) := by
    rintro l _ rfl hl
    exact ((C02_variance (ε := ε) (w := w) l (by rw [hl]; exact h)).1 (by rw [hl]; exact h1)).1
  refine ⟨_, _, Spec.variance (Spec.xsOf (sinceClear (firsts ops))), Spec.variance (Spec.ysOf (sinceClear (firsts ops))),
    Spec.variance (Spec.xsOf (sinceClear (seconds ops))), Spec.variance (Spec.ysOf (sinceClear (seconds ops))), c1, c2,
    var _ _ (sinceClear_firsts _) ?_, var _ _ (sinceClear_seconds _) ?_, var _ _ (sinceClear_firsts _) ?_, var _ _ (sinceClear_seconds _) ?_,
    fun hc hc' => ?_⟩
  · rw [Spec.length_xsOf, sinceClear_firsts, List.length_map]
  · rw [Spec.length_ysOf, sinceClear_firsts, List.length_map]
  · rw [Spec.length_xsOf, sinceClear_seconds, List.length_map]
  · rw [Spec.length_ysOf, sinceClear_seconds, List.length_map]
  rw [if_neg (not_lt.2 hc), if_neg (not_lt.2 hc')]
  rw [sinceClear_firsts] at hc
  rw [sinceClear_seconds] at hc'
  rw [sinceClear_firsts, sinceClear_seconds]
  exact correlation_pairs hε hne hm hc hc'

/-! ### Examples -/

/-- True points on the line `y = x`; `y` is measured with errors of at most 1. -/
def demoLine : List (Op ((ℝ × ℝ) × (ℝ × ℝ))) := [.push ((0, 0), (0, -1)), .push ((2, 2), (2, 3))]

theorem demoLine_measured : Measured2 0 1 (sinceClear demoLine) := by
  have e : sinceClear demoLine = [((0, 0), (0, -1)), ((2, 2), (2, 3))] := rfl
  rw [e]
  constructor <;> refine ⟨by norm_num, fun q hq => ?_⟩ <;>
    simp only [List.map_cons, List.map_nil, List.mem_cons, List.not_mem_nil, or_false] at hq <;>
    rcases hq with rfl | rfl <;> norm_num

/-- The slope changes from 1 to 2, by as much as the bound allows. -/
example : ∃ k k' vx' : ℝ, (Cumulative.Regression.run (finOps2 (firsts demoLine)) : Cumulative.Regression 64 (E ε)).slope = X.fin k
    ∧ (Cumulative.Regression.run (finOps2 (seconds demoLine)) : Cumulative.Regression 64 (E ε)).slope = X.fin k'
    ∧ |k' - k| ≤ 1 / √vx' ∧ vx' = 1 ∧ k = 1 ∧ k' = 2 := by
  have e : sinceClear demoLine = [((0, 0), (0, -1)), ((2, 2), (2, 3))] := rfl
  obtain ⟨k, k', vy, vx', m', hk, hk', -, hx', -, -, hb, -⟩ := C189_regression (w := 64) (ε := ε) demoLine (by rw [e]; simp) (by rw [e]; simp)
    demoLine_measured ⟨_, by rw [e]; exact List.mem_cons_self, ((2, 2), (2, 3)), by rw [e]; simp, by norm_num⟩
  have hv := ((C02_variance (ε := ε) (w := 64) (firsts (seconds demoLine)) (by rw [sinceClear_firsts, sinceClear_seconds, e]; simp)).1
    (by rw [sinceClear_firsts, sinceClear_seconds, e]; simp)).1
  have h1 := (regression_result (ε := ε) (w := 64) (firsts demoLine) (by rw [sinceClear_firsts, e]; simp) (by rw [sinceClear_firsts, e]; simp)).1
  have h2 := (regression_result (ε := ε) (w := 64) (seconds demoLine) (by rw [sinceClear_seconds, e]; simp) (by rw [sinceClear_seconds, e]; simp)).1
  rw [hx', X.fin_inj, sinceClear_firsts, sinceClear_seconds, e] at hv
  rw [hk, X.fin_inj, sinceClear_firsts, e] at h1
  rw [hk', X.fin_inj, sinceClear_seconds, e] at h2
  refine ⟨k, k', vx', hk, hk', ?_, ?_, ?_, ?_⟩
  · simpa [Spec_slopeError] using hb
  · rw [hv]; norm_num [Spec.variance, Spec.central, Spec.mean]
  · rw [h1]; norm_num [Spec.central, Spec.cosum, Spec.mean, Spec.xsOf, Spec.ysOf]
  · rw [h2]; norm_num [Spec.central, Spec.cosum, Spec.mean, Spec.xsOf, Spec.ysOf]

end Verif.Props
