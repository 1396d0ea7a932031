import Verif.Props.Superposition
import Verif.Props.RegressionError
import Verif.Props.InterimRegressionError
import Verif.Props.DecayFactor
import Verif.Props.Coefficients
/-
C187: data with measurement errors.  A history of pairs `(x, x')` holds the true value `x` and the measured value `x'`;
the filters fed with the measured values are compared with the filters fed with the true values.
-/
namespace Verif.Props
open Scalar Exact

variable {w N W : Nat} {ε δ : ℝ}

/-- Every measured value differs from the true value by at most `δ`. -/
def Measured (δ : ℝ) (ps : List (ℝ × ℝ)) : Prop := 0 ≤ δ ∧ ∀ q ∈ ps, |q.2 - q.1| ≤ δ

/-- The errors. -/
def errors (ps : List (ℝ × ℝ)) : List ℝ := ps.map fun q => (-1) * q.1 + 1 * q.2

theorem Measured.errors {ps : List (ℝ × ℝ)} (h : Measured δ ps) : ∀ e ∈ errors ps, |e| ≤ δ := by
  intro e he
  obtain ⟨q, hq, rfl⟩ := List.mem_map.1 he
  rw [show -1 * q.1 + 1 * q.2 = q.2 - q.1 by ring]
  exact h.2 q hq

theorem Measured.lastN {ps : List (ℝ × ℝ)} (h : Measured δ ps) (N : ℕ) : Measured δ (Spec.lastN N ps) :=
  ⟨h.1, fun q hq => h.2 q (List.mem_of_mem_drop hq)⟩

theorem linear_error {T : List ℝ → ℝ} (h : Linear T) (ps : List (ℝ × ℝ)) :
    T (ps.map Prod.snd) - T (ps.map Prod.fst) = T (errors ps) := by
  rw [errors, h (-1) 1 ps]; ring

/-- The square root of a nonnegative quadratic form is a seminorm. -/
theorem quadratic_error {V : List ℝ → ℝ} {C : List (ℝ × ℝ) → ℝ} (hQ : Quadratic V C) (hV : ∀ l, 0 ≤ V l) (ps : List (ℝ × ℝ)) :
    |√(V (ps.map Prod.snd)) - √(V (ps.map Prod.fst))| ≤ √(V (errors ps)) := by
  have h : ∀ a b : ℝ, 0 ≤ a ^ 2 * V (ps.map Prod.fst) + 2 * a * b * C ps + b ^ 2 * V (ps.map Prod.snd) := by
    intro a b; rw [← hQ a b ps]; exact hV _
  have he : V (errors ps) = V (ps.map Prod.fst) - 2 * C ps + V (ps.map Prod.snd) := by rw [errors, hQ (-1) 1 ps]; ring
  rw [he]
  have hX := hV (ps.map Prod.fst)
  have hY := hV (ps.map Prod.snd)
  generalize V (ps.map Prod.fst) = x at *
  generalize V (ps.map Prod.snd) = y at *
  generalize C ps = c at *
  have hc : c ^ 2 ≤ x * y := by
    by_contra hlt
    push Not at hlt
    have h1 := h (-c) x
    have h2 := h y (-c)
    have hx0 : x = 0 := by nlinarith
    have hy0 : y = 0 := by nlinarith
    have h3 := h 1 1
    have h4 := h 1 (-1)
    have : c = 0 := by subst hx0 hy0; linarith
    subst this hx0
    simp at hlt
  have hs : c ≤ √x * √y := by
    rw [← Real.sqrt_mul hX]
    exact Real.le_sqrt_of_sq_le hc
  rw [← Real.sqrt_sq_eq_abs]
  apply Real.sqrt_le_sqrt
  have e1 := Real.sq_sqrt hX
  have e2 := Real.sq_sqrt hY
  nlinarith

/-! ### Mean -/

open Cumulative in
/-- C187: the cumulative mean. -/
theorem C187_mean (ops : List (Op (ℝ × ℝ))) (h : (sinceClear ops).length < 2 ^ w) (hm : Measured δ (sinceClear ops)) :
    ∃ x x' : ℝ, (Mean.run (finOps (firsts ops)) : Mean w (E ε)).getMean = X.fin x
      ∧ (Mean.run (finOps (seconds ops)) : Mean w (E ε)).getMean = X.fin x' ∧ |x' - x| ≤ δ := by
  refine ⟨_, _, (C01_mean _ (by rw [sinceClear_firsts, List.length_map]; exact h)).1,
    (C01_mean _ (by rw [sinceClear_seconds, List.length_map]; exact h)).1, ?_⟩
  rw [sinceClear_firsts, sinceClear_seconds, linear_error linear_mean]
  exact Window.abs_mean_le hm.1 hm.errors

open Cumulative in
/-- C187: the trend. -/
theorem C187_trend (ops : List (Op (ℝ × ℝ))) (h : (sinceClear ops).length < 2 ^ w) (hm : Measured δ (sinceClear ops)) :
    ∃ x x' : ℝ, (Trend.run (finOps (firsts ops)) : Trend w (E ε)).value = X.fin x
      ∧ (Trend.run (finOps (seconds ops)) : Trend w (E ε)).value = X.fin x' ∧ |x' - x| ≤ 5 * δ := by
  refine ⟨_, _, (C14_trend _ (by rw [sinceClear_firsts, List.length_map]; exact h)).1,
    (C14_trend _ (by rw [sinceClear_seconds, List.length_map]; exact h)).1, ?_⟩
  rw [sinceClear_firsts, sinceClear_seconds]
  have e1 := linear_error linear_mean (sinceClear ops)
  have e2 := linear_error linear_runningMeans (sinceClear ops)
  have h1 := abs_le.1 (Window.abs_mean_le hm.1 hm.errors)
  have h2 : |Spec.mean (Spec.runningMeans (errors (sinceClear ops)))| ≤ δ := by
    refine Window.abs_mean_le hm.1 fun y hy => ?_
    simp only [Spec.runningMeans, List.mem_map] at hy
    obtain ⟨k, -, rfl⟩ := hy
    exact Window.abs_mean_le hm.1 fun x hx => hm.errors x (List.mem_of_mem_take hx)
  have h2 := abs_le.1 h2
  rw [← e1] at h1
  rw [← e2] at h2
  exact abs_le.2 ⟨by linarith, by linarith⟩

open Decay in
/-- C187: the decaying mean. -/
theorem C187_decay_mean {f : ℝ} (h0 : 0 < f) (h1 : f ≤ 1) (ops : List (Op (ℝ × ℝ))) (hm : Measured δ (sinceClear ops)) :
    ∃ x x' : ℝ, (Mean.run (X.fin f) (finOps (firsts ops)) : Mean (E ε)).mean = X.fin x
      ∧ (Mean.run (X.fin f) (finOps (seconds ops)) : Mean (E ε)).mean = X.fin x' ∧ |x' - x| ≤ δ := by
  refine ⟨_, _, C25_decay_mean h0 h1 _, C25_decay_mean h0 h1 _, ?_⟩
  rw [sinceClear_firsts, sinceClear_seconds, linear_error (linear_ewMean f)]
  exact abs_ewMean_le h0 h1 hm.1 hm.errors

open Window in
/-- C187: the mean of a window; only the errors in the window count. -/
theorem C187_window_mean (hN : 1 ≤ N) (ops : List (Op (ℝ × ℝ))) (hm : Measured δ (Spec.lastN N (sinceClear ops))) :
    ∃ (s t : Mean N (E ε)) (x x' : ℝ), Mean.run (finOps (firsts ops)) = some s ∧ Mean.run (finOps (seconds ops)) = some t
      ∧ s.getMean = X.fin x ∧ t.getMean = X.fin x' ∧ |x' - x| ≤ δ := by
  obtain ⟨s, hs, hx⟩ := C18_window_mean (ε := ε) hN (firsts ops)
  obtain ⟨t, ht, hy⟩ := C18_window_mean (ε := ε) hN (seconds ops)
  refine ⟨s, t, _, _, hs, ht, hx, hy, ?_⟩
  rw [sinceClear_firsts, sinceClear_seconds, Spec.lastN_map, Spec.lastN_map, linear_error linear_mean]
  exact Window.abs_mean_le hm.1 hm.errors

open Interim in
/-- C187: the interim mean. -/
theorem C187_interim_mean (hW : 1 ≤ W) (hw : 2 * W < 2 ^ w) (ops : List (Op (ℝ × ℝ))) (hm : Measured δ (sinceClear ops)) :
    ∃ x x' : ℝ, IMean.mean (Interim.run (finOps (firsts ops)) : IMean w W (E ε)) = X.fin x
      ∧ IMean.mean (Interim.run (finOps (seconds ops)) : IMean w W (E ε)) = X.fin x' ∧ |x' - x| ≤ δ := by
  refine ⟨_, _, (C29_interim_mean hW hw _).1, (C29_interim_mean hW hw _).1, ?_⟩
  rw [sinceClear_firsts, sinceClear_seconds, linear_error (linear_interim W)]
  rcases eq_or_ne (errors (sinceClear ops)) [] with e | e
  · rw [e]; simp [Spec_interimMean, Spec.mean, hm.1]
  · exact abs_interimMean hW e hm.errors

/-! ### Variance -/

theorem sqrt_le_of_le_mul {v : ℝ} (hδ : 0 ≤ δ) (h : v ≤ δ * δ) : √v ≤ δ :=
  (Real.sqrt_le_sqrt h).trans (Real.sqrt_mul_self hδ).le

theorem sqrt_variance_error {ps : List (ℝ × ℝ)} (hne : ps ≠ []) (hm : Measured δ ps) :
    |√(Spec.variance (ps.map Prod.snd)) - √(Spec.variance (ps.map Prod.fst))| ≤ δ :=
  (quadratic_error quadratic_variance variance_nonneg ps).trans
    (sqrt_le_of_le_mul hm.1 (PairData.variance_le (by simpa [errors] using hne) hm.errors))

open Cumulative in
/-- C187: the standard deviation. -/
theorem C187_variance (ops : List (Op (ℝ × ℝ))) (h : (sinceClear ops).length < 2 ^ w) (h1 : 1 ≤ (sinceClear ops).length)
    (hm : Measured δ (sinceClear ops)) :
    ∃ v v' : ℝ, (Variance.run (finOps (firsts ops)) : Variance w (E ε)).variance = X.fin v
      ∧ (Variance.run (finOps (seconds ops)) : Variance w (E ε)).variance = X.fin v' ∧ |√v' - √v| ≤ δ := by
  refine ⟨_, _, ((C02_variance _ (by rw [sinceClear_firsts, List.length_map]; exact h)).1 (by rw [sinceClear_firsts, List.length_map]; exact h1)).1,
    ((C02_variance _ (by rw [sinceClear_seconds, List.length_map]; exact h)).1 (by rw [sinceClear_seconds, List.length_map]; exact h1)).1, ?_⟩
  rw [sinceClear_firsts, sinceClear_seconds]
  exact sqrt_variance_error (List.length_pos_iff.1 h1) hm

open Window in
/-- C187: the standard deviation of a window. -/
theorem C187_window_variance (hN : 1 ≤ N) (ops : List (Op (ℝ × ℝ))) (hne : sinceClear ops ≠ []) (hm : Measured δ (Spec.lastN N (sinceClear ops))) :
    ∃ (s t : Variance N (E ε)) (v v' : ℝ), Variance.run (finOps (firsts ops)) = some s ∧ Variance.run (finOps (seconds ops)) = some t
      ∧ s.variance = X.fin v ∧ t.variance = X.fin v' ∧ |√v' - √v| ≤ δ := by
  have hl := lastN_ne_nil (N := N) hN hne
  obtain ⟨s, hs, hx, -⟩ := C19_window_variance (ε := ε) hN (firsts ops)
  obtain ⟨t, ht, hy, -⟩ := C19_window_variance (ε := ε) hN (seconds ops)
  refine ⟨s, t, _, _, hs, ht, hx ?_, hy ?_, ?_⟩
  · rw [sinceClear_firsts, Spec.lastN_map, List.length_map]; exact List.length_pos_iff.2 hl
  · rw [sinceClear_seconds, Spec.lastN_map, List.length_map]; exact List.length_pos_iff.2 hl
  rw [sinceClear_firsts, sinceClear_seconds, Spec.lastN_map, Spec.lastN_map]
  exact sqrt_variance_error hl hm

open Interim in
/-- C187: the interim standard deviation. -/
theorem C187_interim_variance (hW : 1 ≤ W) (hw : W * W < 2 ^ w) (ops : List (Op (ℝ × ℝ))) (hne : sinceClear ops ≠ [])
    (hm : Measured δ (sinceClear ops)) :
    ∃ v v' : ℝ, IVariance.variance (Interim.run (finOps (firsts ops)) : IVariance w W (E ε)) = X.fin v
      ∧ IVariance.variance (Interim.run (finOps (seconds ops)) : IVariance w W (E ε)) = X.fin v' ∧ |√v' - √v| ≤ δ := by
  refine ⟨_, _, (C30_interim_variance hW hw _ ?_).1, (C30_interim_variance hW hw _ ?_).1, ?_⟩
  · rw [sinceClear_firsts]; simpa using hne
  · rw [sinceClear_seconds]; simpa using hne
  rw [sinceClear_firsts, sinceClear_seconds]
  refine (quadratic_error (quadratic_interim W) (fun l => ?_) _).trans (sqrt_le_of_le_mul hm.1 ?_)
  · rcases eq_or_ne l [] with rfl | hl
    · simp [Spec_interimVariance, Spec.variance]
    · exact (C30_interim_variance_convex hW _ l hl).2.2 variance_nonneg
  · refine (le_abs_self _).trans (abs_interimVariance hW (by simpa [errors] using hne) fun l hl hsub => ?_)
    rw [abs_of_nonneg (variance_nonneg l)]
    exact PairData.variance_le hl fun x hx => hm.errors x (hsub x hx)

open Decay in
/-- C187: the decaying standard deviation, for every history. -/
theorem C187_decay_variance {f g : ℝ} (hf : 0 < f ∧ f ≤ 1) (hg : 0 < g ∧ g ≤ 1) (ops : List (Op (ℝ × ℝ))) (hm : Measured δ (sinceClear ops)) :
    ∃ v v' : ℝ, (Variance.run (X.fin f) (X.fin g) (finOps (firsts ops)) : Variance (E ε)).variance = X.fin v
      ∧ (Variance.run (X.fin f) (X.fin g) (finOps (seconds ops)) : Variance (E ε)).variance = X.fin v' ∧ |√v' - √v| ≤ 2 * δ := by
  have gen : ∀ l : List (Op ℝ), (Variance.run (X.fin f) (X.fin g) (finOps l) : Variance (E ε)).variance
      = X.fin (Spec.ewSum g ((Spec.ewDevs f (sinceClear l)).map (· ^ 2)) / (1 - (1 - g) ^ pushCount l)) := by
    intro l
    rw [Variance.run_fin hf.1 hf.2, Variance.variance_of hg.1 hg.2 (length_sinceClear_le _)]
  have p2 : pushCount (firsts ops) = pushCount ops := pushCount_map _ _
  have p3 : pushCount (seconds ops) = pushCount ops := pushCount_map _ _
  refine ⟨_, _, gen _, gen _, ?_⟩
  have hq0 : 0 ≤ 1 - g := by linarith [hg.2]
  have hq1 : 1 - g ≤ 1 := by linarith [hg.1]
  have hd0 : 0 ≤ 1 - (1 - g) ^ pushCount ops := by linarith [pow_le_one₀ (n := pushCount ops) hq0 hq1]
  rw [sinceClear_firsts, sinceClear_seconds, p2, p3]
  have hQ : Quadratic (fun xs => Spec.ewSum g ((Spec.ewDevs f xs).map (· ^ 2)) / (1 - (1 - g) ^ pushCount ops))
      fun ps => Spec.ewSum g (((Spec.ewDevs f (ps.map Prod.fst)).zip (Spec.ewDevs f (ps.map Prod.snd))).map fun d => d.1 * d.2)
        / (1 - (1 - g) ^ pushCount ops) := by
    intro a b ps
    have := quadratic_decay f g a b ps
    dsimp only at this ⊢
    rw [this]; ring
  refine (quadratic_error hQ (fun l => ?_) _).trans (sqrt_le_of_le_mul (by linarith [hm.1]) ?_)
  · refine div_nonneg (Spec.ewSum_nonneg hg.1 hg.2 fun y hy => ?_) hd0
    obtain ⟨z, -, rfl⟩ := List.mem_map.1 hy
    positivity
  · have hs : Spec.ewSum g ((Spec.ewDevs f (errors (sinceClear ops))).map (· ^ 2))
        ≤ (2 * δ) ^ 2 * (1 - (1 - g) ^ ((Spec.ewDevs f (errors (sinceClear ops))).map (· ^ 2)).length) := by
      refine Spec.ewSum_le hg.1 hg.2 fun y hy => ?_
      simp only [Spec.ewDevs, List.map_map, List.mem_map, List.mem_range] at hy
      obtain ⟨k, hk, rfl⟩ := hy
      have := abs_le.1 (ewDevs_bound hf.1 hf.2 (lo := -δ) (hi := δ) (fun x hx => abs_le.1 (hm.errors x hx)) hk)
      exact sq_le_sq' (by linarith [this.1]) (by linarith [this.2])
    rw [List.length_map, Spec.length_ewDevs, errors, List.length_map, ← errors] at hs
    have hp : (1 - g) ^ pushCount ops ≤ (1 - g) ^ (sinceClear ops).length := pow_le_pow_of_le_one hq0 hq1 (length_sinceClear_le _)
    rcases hd0.lt_or_eq with hd | hd
    · rw [div_le_iff₀ hd]
      nlinarith [sq_nonneg (2 * δ)]
    · rw [← hd, div_zero]; nlinarith [hm.1]

/-! ### Covariance -/

/-- Both variables measured with errors of at most `δ₁` and `δ₂`. -/
def Measured2 (δ₁ δ₂ : ℝ) (qs : List ((ℝ × ℝ) × (ℝ × ℝ))) : Prop :=
  Measured δ₁ (qs.map fun q => (q.1.1, q.2.1)) ∧ Measured δ₂ (qs.map fun q => (q.1.2, q.2.2))

theorem covariance_error {δ₁ δ₂ : ℝ} {qs : List ((ℝ × ℝ) × (ℝ × ℝ))} (hne : qs ≠ []) (hm : Measured2 δ₁ δ₂ qs) :
    |Spec.covariance (qs.map Prod.snd) - Spec.covariance (qs.map Prod.fst)|
      ≤ δ₁ * √(Spec.variance (Spec.ysOf (qs.map Prod.fst))) + δ₂ * √(Spec.variance (Spec.xsOf (qs.map Prod.fst))) + δ₁ * δ₂ := by
  have cs : ∀ ps : List (ℝ × ℝ), |Spec.covariance ps| ≤ √(Spec.variance (Spec.xsOf ps)) * √(Spec.variance (Spec.ysOf ps)) := by
    intro ps
    rw [← Real.sqrt_mul (variance_nonneg _), ← Real.sqrt_sq_eq_abs]
    exact Real.sqrt_le_sqrt (covariance_sq_le ps)
  have hx := sqrt_le_of_le_mul hm.1.1 (PairData.variance_le (by simpa [errors] using hne) hm.1.errors)
  have hy := sqrt_le_of_le_mul hm.2.1 (PairData.variance_le (by simpa [errors] using hne) hm.2.errors)
  have key : Spec.covariance (qs.map Prod.snd) - Spec.covariance (qs.map Prod.fst)
      = Spec.covariance (qs.map fun q => ((-1) * q.1.1 + 1 * q.2.1, q.1.2)) + Spec.covariance (qs.map fun q => (q.1.1, (-1) * q.1.2 + 1 * q.2.2))
        + Spec.covariance (qs.map fun q => ((-1) * q.1.1 + 1 * q.2.1, (-1) * q.1.2 + 1 * q.2.2)) := by
    have mx := linear_mean (-1) 1 (qs.map fun q => (q.1.1, q.2.1))
    have my := linear_mean (-1) 1 (qs.map fun q => (q.1.2, q.2.2))
    simp only [List.map_map, Function.comp_def] at mx my
    simp only [Spec.covariance, Spec.cosum, Spec.xsOf, Spec.ysOf, List.map_map, Function.comp_def, List.length_map, mx, my, ← add_div, ← sub_div]
    congr 1
    generalize Spec.mean _ = a
    generalize Spec.mean _ = b
    generalize Spec.mean _ = c
    generalize Spec.mean _ = d
    clear hne hm hx hy mx my
    induction qs with
    | nil => simp
    | cons q qs ih => simp only [List.map_cons, List.sum_cons]; linear_combination ih
  rw [key]
  have h1 := cs (qs.map fun q => ((-1) * q.1.1 + 1 * q.2.1, q.1.2))
  have h2 := cs (qs.map fun q => (q.1.1, (-1) * q.1.2 + 1 * q.2.2))
  have h3 := cs (qs.map fun q => ((-1) * q.1.1 + 1 * q.2.1, (-1) * q.1.2 + 1 * q.2.2))
  simp only [Spec.xsOf, Spec.ysOf, errors, List.map_map, Function.comp_def] at h1 h2 h3 hx hy ⊢
  refine (abs_add_three _ _ _).trans (add_le_add (add_le_add (h1.trans ?_) (h2.trans ?_)) (h3.trans ?_))
  · exact mul_le_mul_of_nonneg_right hx (Real.sqrt_nonneg _)
  · rw [mul_comm]; exact mul_le_mul_of_nonneg_right hy (Real.sqrt_nonneg _)
  · exact mul_le_mul hx hy (Real.sqrt_nonneg _) hm.1.1

open Cumulative in
/-- C187: the covariance of two variables that are both measured with errors. -/
theorem C187_covariance {δ₁ δ₂ : ℝ} (ops : List (Op ((ℝ × ℝ) × (ℝ × ℝ)))) (h : (sinceClear ops).length < 2 ^ w)
    (h1 : 1 ≤ (sinceClear ops).length) (hm : Measured2 δ₁ δ₂ (sinceClear ops)) :
    ∃ c c' vx vy : ℝ, (Comoment.run (finOps2 (firsts ops)) : Comoment w (E ε)).variance = X.fin c
      ∧ (Comoment.run (finOps2 (seconds ops)) : Comoment w (E ε)).variance = X.fin c'
      ∧ (Variance.run (finOps (firsts (firsts ops))) : Variance w (E ε)).variance = X.fin vx
      ∧ (Variance.run (finOps (seconds (firsts ops))) : Variance w (E ε)).variance = X.fin vy
      ∧ |c' - c| ≤ δ₁ * √vy + δ₂ * √vx + δ₁ * δ₂ := by
  refine ⟨_, _, _, _, (C09_covariance _ (by rw [sinceClear_firsts, List.length_map]; exact h)).2.2.1 (by rw [sinceClear_firsts, List.length_map]; exact h1),
    (C09_covariance _ (by rw [sinceClear_seconds, List.length_map]; exact h)).2.2.1 (by rw [sinceClear_seconds, List.length_map]; exact h1),
    ((C02_variance _ (by simpa [sinceClear_firsts] using h)).1 (by simpa [sinceClear_firsts] using h1)).1,
    ((C02_variance _ (by simpa [sinceClear_firsts, sinceClear_seconds] using h)).1 (by simpa [sinceClear_firsts, sinceClear_seconds] using h1)).1, ?_⟩
  have := covariance_error (List.length_pos_iff.1 h1) hm
  simpa only [sinceClear_firsts, sinceClear_seconds, Spec.xsOf, Spec.ysOf] using this

open Window in
/-- C187: the covariance of a window. -/
theorem C187_window_covariance {δ₁ δ₂ : ℝ} (hN : 1 ≤ N) (ops : List (Op ((ℝ × ℝ) × (ℝ × ℝ)))) (hne : sinceClear ops ≠ [])
    (hm : Measured2 δ₁ δ₂ (Spec.lastN N (sinceClear ops))) :
    ∃ (s t : Comoment N (E ε)) (a b : Variance N (E ε)) (c c' vx vy : ℝ), Comoment.run (finOps2 (firsts ops)) = some s
      ∧ Comoment.run (finOps2 (seconds ops)) = some t
      ∧ Variance.run (finOps (firsts (firsts ops))) = some a ∧ Variance.run (finOps (seconds (firsts ops))) = some b
      ∧ s.variance = X.fin c ∧ t.variance = X.fin c' ∧ a.variance = X.fin vx ∧ b.variance = X.fin vy
      ∧ |c' - c| ≤ δ₁ * √vy + δ₂ * √vx + δ₁ * δ₂ := by
  have hl := lastN_ne_nil (N := N) hN hne
  have hp := List.length_pos_iff.2 hl
  obtain ⟨s, hs, -, hc, -⟩ := C20_window_covariance (ε := ε) hN (firsts ops)
  obtain ⟨t, ht, -, hc', -⟩ := C20_window_covariance (ε := ε) hN (seconds ops)
  obtain ⟨a, ha, hva, -⟩ := C19_window_variance (ε := ε) hN (firsts (firsts ops))
  obtain ⟨b, hb, hvb, -⟩ := C19_window_variance (ε := ε) hN (seconds (firsts ops))
  simp only [sinceClear_firsts, sinceClear_seconds, Spec.lastN_map, List.length_map] at hc hc' hva hvb
  exact ⟨s, t, a, b, _, _, _, _, hs, ht, ha, hb, hc hp, hc' hp, hva hp, hvb hp, covariance_error hl hm⟩

/-! ### Impulse response filters -/

/-- C187: finite impulse response. -/
theorem C187_fir {cs : List ℝ} (hc : cs ≠ []) (ops : List (Op (ℝ × ℝ))) (q : ℝ × ℝ) (hm : Measured δ (Spec.lastN cs.length (sinceClear (ops ++ [.push q])))) :
    ∃ (s t : Impulse.Finite (E ε)) (y y' : ℝ), Impulse.Finite.run (cs.map X.fin) (finOps (firsts (ops ++ [.push q]))) = some s
      ∧ Impulse.Finite.run (cs.map X.fin) (finOps (seconds (ops ++ [.push q]))) = some t
      ∧ s.value = X.fin y ∧ t.value = X.fin y' ∧ |y' - y| ≤ δ * (cs.map abs).sum := by
  have e1 : firsts (ops ++ [.push q]) = firsts ops ++ [.push q.1] := by simp [firsts, Op.map]
  have e2 : seconds (ops ++ [.push q]) = seconds ops ++ [.push q.2] := by simp [seconds, Op.map]
  obtain ⟨s, hs, hv⟩ := C50_fir (ε := ε) hc (firsts ops) q.1
  obtain ⟨t, ht, hv'⟩ := C50_fir (ε := ε) hc (seconds ops) q.2
  rw [← e1] at hs hv
  rw [← e2] at ht hv'
  refine ⟨s, t, _, _, hs, ht, hv, hv', ?_⟩
  rw [sinceClear_firsts, sinceClear_seconds]
  generalize sinceClear (ops ++ [.push q]) = ps at *
  have hlin : Linear (Spec.fir cs) := by
    intro a b ps
    have := Spec.fir_linear cs a b (xs := ps.map Prod.fst) (xs' := ps.map Prod.snd) (by simp)
    rw [← this, List.zipWith_map, List.zipWith_self]
  rw [linear_error hlin]
  refine Spec.fir_abs_le hm.1 fun x hx => ?_
  rw [errors, Spec.lastN_map] at hx
  exact hm.errors x hx

/-- C187: infinite impulse response with the gain `G` (C184). -/
theorem C187_iir {as bs : List ℝ} (ha : as ≠ []) (hb : bs ≠ []) {c G : ℝ} (h : Spec.Gain bs c G) (ops : List (Op (ℝ × ℝ))) (hm : Measured δ (sinceClear ops)) :
    ∃ (s t : Impulse.Infinite (E ε)) (y y' : ℝ), Impulse.Infinite.run (as.map X.fin) (bs.map X.fin) (X.fin c) (finOps (firsts ops)) = some s
      ∧ Impulse.Infinite.run (as.map X.fin) (bs.map X.fin) (X.fin c) (finOps (seconds ops)) = some t
      ∧ s.value = X.fin y ∧ t.value = X.fin y' ∧ |y' - y| ≤ G * (δ * (as.map abs).sum) := by
  obtain ⟨s, zs, hs, hz, -, hvz⟩ := C52_iir (ε := ε) ha hb (gain_scale h) (firsts ops)
  obtain ⟨t, ys, ht, hy, -, hvy⟩ := C52_iir (ε := ε) ha hb (gain_scale h) (seconds ops)
  have hl : ys.length = zs.length := by
    rw [hy.1, hz.1, sinceClear_firsts, sinceClear_seconds, List.length_map, List.length_map]
  refine ⟨s, t, _, _, hs, ht, hvz, hvy, getLastD_apart (mul_nonneg h.1 (mul_nonneg hm.1 (sum_abs_nonneg _))) hl ?_⟩
  rw [sinceClear_firsts] at hz
  rw [sinceClear_seconds] at hy
  generalize sinceClear ops = ps at *
  refine h.2 _ _ fun k hk => ?_
  rw [List.length_zipWith, Nat.lt_min] at hk
  have e1 : (List.zipWith (fun y z => 1 * y + (-1) * z) ys zs).getD k 0 = ys.getD k 0 - zs.getD k 0 := by
    rw [List.getD_eq_getElem _ _ (by rw [List.length_zipWith]; omega), List.getD_eq_getElem _ _ hk.1, List.getD_eq_getElem _ _ hk.2, List.getElem_zipWith]
    ring
  rw [e1, List.take_zipWith, Spec.fir_linear _ _ _ (by rw [List.length_take, List.length_take, hl])]
  have h1 := hy.2 k (hy.1 ▸ hk.1)
  have h2 := hz.2 k (hz.1 ▸ hk.2)
  have h3 := Spec.fir_linear as (-1) 1 (xs := (ps.map Prod.fst).take (k + 1)) (xs' := (ps.map Prod.snd).take (k + 1)) (by simp)
  rw [show c * (ys.getD k 0 - zs.getD k 0) + (1 * Spec.fir bs (ys.take k) + -1 * Spec.fir bs (zs.take k))
    = Spec.fir as (List.zipWith (fun x y => -1 * x + 1 * y) ((ps.map Prod.fst).take (k + 1)) ((ps.map Prod.snd).take (k + 1))) by
      rw [h3]; linear_combination h1 - h2]
  refine Spec.fir_abs_le hm.1 fun x hx => hm.errors x ?_
  have hx := List.mem_of_mem_drop hx
  rw [← List.take_zipWith, List.zipWith_map, List.zipWith_self] at hx
  exact List.mem_of_mem_take hx

/-- The bounds are attained. -/
example : ∃ x x' : ℝ, (Cumulative.Mean.run (finOps (firsts [.push (1, 2), .push (5, 6)])) : Cumulative.Mean 64 (E 0)).getMean = X.fin x
    ∧ (Cumulative.Mean.run (finOps (seconds [.push (1, 2), .push (5, 6)])) : Cumulative.Mean 64 (E 0)).getMean = X.fin x' ∧ |x' - x| = 1 := by
  refine ⟨_, _, (C01_mean _ (by simp [sinceClear, firsts, Op.map])).1, (C01_mean _ (by simp [sinceClear, seconds, Op.map])).1, ?_⟩
  simp [sinceClear, firsts, seconds, Spec.mean, Op.map]
  norm_num

example : Measured 1 [((1 : ℝ), (2 : ℝ)), (5, 4)] := ⟨by norm_num, by
  intro q hq
  simp at hq
  rcases hq with rfl | rfl <;> norm_num⟩

end Verif.Props
