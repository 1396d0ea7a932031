import Verif.Props.InputError
/-
C187: the interim covariance of data with measurement errors.
-/
namespace Verif.Props
open Scalar Exact

variable {w W : Nat} {ε : ℝ}

/-- The blend of two square roots is at most the square root of the blend. -/
theorem blend_sqrt_le {p q a b : ℝ} (hp : 0 < p) (hq : 0 ≤ q) (ha : 0 ≤ a) (hb : 0 ≤ b) :
    Spec.blend p q (√a) (√b) ≤ √(Spec.blend p q a b) := by
  have hpq : 0 < p + q := by linarith
  refine Real.le_sqrt_of_sq_le ?_
  rw [Spec.blend, Spec.blend, div_pow, div_le_div_iff₀ (by positivity) hpq]
  have e1 := Real.sq_sqrt ha
  have e2 := Real.sq_sqrt hb
  have h := mul_nonneg (mul_nonneg hp.le hq) (sq_nonneg (√a - √b))
  have : (p * √a + q * √b) ^ 2 ≤ (p * a + q * b) * (p + q) := by
    have e3 : (p * √a + q * √b) ^ 2 = (p * √a ^ 2 + q * √b ^ 2) * (p + q) - p * q * (√a - √b) ^ 2 := by ring
    rw [e3, e1, e2]
    linarith
  nlinarith

/-- The error of a blend. -/
theorem blend_error {p q c₁ c₂ c₁' c₂' x₁ x₂ y₁ y₂ d e : ℝ} (hp : 0 < p) (hq : 0 ≤ q) (hd : 0 ≤ d) (he : 0 ≤ e)
    (hx₁ : 0 ≤ x₁) (hx₂ : 0 ≤ x₂) (hy₁ : 0 ≤ y₁) (hy₂ : 0 ≤ y₂)
    (h₁ : |c₁' - c₁| ≤ d * √y₁ + e * √x₁ + d * e) (h₂ : |c₂' - c₂| ≤ d * √y₂ + e * √x₂ + d * e) :
    |Spec.blend p q c₁' c₂' - Spec.blend p q c₁ c₂| ≤ d * √(Spec.blend p q y₁ y₂) + e * √(Spec.blend p q x₁ x₂) + d * e := by
  have hpq : 0 < p + q := by linarith
  have s1 := mul_le_mul_of_nonneg_left (blend_sqrt_le hp hq hy₁ hy₂) hd
  have s2 := mul_le_mul_of_nonneg_left (blend_sqrt_le hp hq hx₁ hx₂) he
  have key : |Spec.blend p q c₁' c₂' - Spec.blend p q c₁ c₂|
      ≤ d * Spec.blend p q (√y₁) (√y₂) + e * Spec.blend p q (√x₁) (√x₂) + d * e := by
    have e1 : Spec.blend p q c₁' c₂' - Spec.blend p q c₁ c₂ = (p * (c₁' - c₁) + q * (c₂' - c₂)) / (p + q) := by
      simp only [Spec.blend]; ring
    have e2 : d * Spec.blend p q (√y₁) (√y₂) + e * Spec.blend p q (√x₁) (√x₂) + d * e
        = (p * (d * √y₁ + e * √x₁ + d * e) + q * (d * √y₂ + e * √x₂ + d * e)) / (p + q) := by
      simp only [Spec.blend]; field_simp; ring
    rw [e1, e2, abs_div, abs_of_pos hpq, div_le_div_iff_of_pos_right hpq]
    refine (abs_add_le _ _).trans ?_
    rw [abs_mul, abs_mul, abs_of_pos hp, abs_of_nonneg hq]
    exact add_le_add (mul_le_mul_of_nonneg_left h₁ hp.le) (mul_le_mul_of_nonneg_left h₂ hq)
  linarith

theorem interimCovariance_error {δ₁ δ₂ : ℝ} (hW : 1 ≤ W) {qs : List ((ℝ × ℝ) × (ℝ × ℝ))} (hne : qs ≠ [])
    (hm : Measured2 δ₁ δ₂ (Spec.prevBlock W qs ++ Spec.curBlock W qs)) :
    |Spec_interimVariance W Spec.covariance (qs.map Prod.snd) - Spec_interimVariance W Spec.covariance (qs.map Prod.fst)|
      ≤ δ₁ * √(Spec_interimVariance W Spec.variance (Spec.ysOf (qs.map Prod.fst)))
        + δ₂ * √(Spec_interimVariance W Spec.variance (Spec.xsOf (qs.map Prod.fst))) + δ₁ * δ₂ := by
  have hcne : Spec.curBlock W qs ≠ [] := fun h => hne ((Spec.curBlock_eq_nil hW qs).1 h)
  have hc1 : (1 : ℝ) ≤ (Spec.curBlock W qs).length := by exact_mod_cast List.length_pos_iff.2 hcne
  have hcW : ((Spec.curBlock W qs).length : ℝ) ≤ W := by exact_mod_cast Spec.length_curBlock_le hW qs
  have sub : ∀ l : List ((ℝ × ℝ) × (ℝ × ℝ)), (∀ q ∈ l, q ∈ Spec.prevBlock W qs ++ Spec.curBlock W qs) → Measured2 δ₁ δ₂ l := by
    intro l hl
    refine ⟨⟨hm.1.1, fun q hq => ?_⟩, hm.2.1, fun q hq => ?_⟩
    · obtain ⟨r, hr, rfl⟩ := List.mem_map.1 hq
      exact hm.1.2 _ (List.mem_map.2 ⟨r, hl r hr, rfl⟩)
    · obtain ⟨r, hr, rfl⟩ := List.mem_map.1 hq
      exact hm.2.2 _ (List.mem_map.2 ⟨r, hl r hr, rfl⟩)
  simp only [Spec_interimVariance, Spec.xsOf, Spec.ysOf, Spec.curBlock_map, Spec.prevBlock_map, List.length_map]
  by_cases hl : qs.length ≤ W
  · simp only [if_pos hl]
    refine covariance_error hne (sub qs fun q hq => ?_)
    rw [Spec.curBlock_of_le hW hl]
    exact List.mem_append_right _ hq
  · simp only [if_neg hl]
    have hpne : Spec.prevBlock W qs ≠ [] := fun h => hl ((Spec.prevBlock_eq_nil hW qs).1 h)
    exact blend_error (by apply pow_pos; linarith) (by linarith) hm.1.1 hm.2.1 (variance_nonneg _) (variance_nonneg _)
      (variance_nonneg _) (variance_nonneg _) (covariance_error hpne (sub _ fun q hq => List.mem_append_left _ hq))
      (covariance_error hcne (sub _ fun q hq => List.mem_append_right _ hq))

open Interim in
/-- C187: the interim covariance, with the interim variances of the true data; only the errors in the last two blocks
count. -/
theorem C187_interim_covariance {δ₁ δ₂ : ℝ} (hW : 1 ≤ W) (hw : W * W < 2 ^ w) (ops : List (Op ((ℝ × ℝ) × (ℝ × ℝ))))
    (hne : sinceClear ops ≠ []) (hm : Measured2 δ₁ δ₂ (Spec.prevBlock W (sinceClear ops) ++ Spec.curBlock W (sinceClear ops))) :
    ∃ c c' vx vy : ℝ, IComoment.variance (Interim.run (finOps2 (firsts ops)) : IComoment w W (E ε)) = X.fin c
      ∧ IComoment.variance (Interim.run (finOps2 (seconds ops)) : IComoment w W (E ε)) = X.fin c'
      ∧ IVariance.variance (Interim.run (finOps (firsts (firsts ops))) : IVariance w W (E ε)) = X.fin vx
      ∧ IVariance.variance (Interim.run (finOps (seconds (firsts ops))) : IVariance w W (E ε)) = X.fin vy
      ∧ |c' - c| ≤ δ₁ * √vy + δ₂ * √vx + δ₁ * δ₂ := by
  refine ⟨_, _, _, _, C31_interim_covariance hW hw _ ?_, C31_interim_covariance hW hw _ ?_, (C30_interim_variance hW hw _ ?_).1,
    (C30_interim_variance hW hw _ ?_).1, ?_⟩
  · simpa [sinceClear_firsts] using hne
  · simpa [sinceClear_seconds] using hne
  · simpa [sinceClear_firsts] using hne
  · simpa [sinceClear_firsts, sinceClear_seconds] using hne
  · have := interimCovariance_error hW hne hm
    simpa only [sinceClear_firsts, sinceClear_seconds, Spec.xsOf, Spec.ysOf] using this

/-- True and measured pairs. -/
noncomputable def demoMeasured : List (Op ((ℝ × ℝ) × (ℝ × ℝ))) :=
  [.push ((0, 1), (90, 1)), .push ((2, 3), (2, 90)), .push ((1, 1), (1.1, 1)), .push ((4, 2), (4, 2.2)), .push ((3, 3), (2.9, 3))]

open Interim in
/-- Blocks of 2: the errors of the first block (here 90) do not count any more. -/
example : ∃ c c' vx vy : ℝ, IComoment.variance (Interim.run (finOps2 (firsts demoMeasured)) : IComoment 64 2 (E ε)) = X.fin c
    ∧ IComoment.variance (Interim.run (finOps2 (seconds demoMeasured)) : IComoment 64 2 (E ε)) = X.fin c'
    ∧ IVariance.variance (Interim.run (finOps (firsts (firsts demoMeasured))) : IVariance 64 2 (E ε)) = X.fin vx
    ∧ IVariance.variance (Interim.run (finOps (seconds (firsts demoMeasured))) : IVariance 64 2 (E ε)) = X.fin vy
    ∧ |c' - c| ≤ 0.1 * √vy + 0.2 * √vx + 0.1 * 0.2 := by
  have e : sinceClear demoMeasured
      = [((0, 1), (90, 1)), ((2, 3), (2, 90)), ((1, 1), (1.1, 1)), ((4, 2), (4, 2.2)), ((3, 3), (2.9, 3))] := rfl
  refine C187_interim_covariance (by norm_num) (by norm_num) demoMeasured (by rw [e]; simp) ?_
  rw [e]
  simp only [Spec.prevBlock, Spec.curBlock, Measured2, Measured]
  norm_num [abs_le]

end Verif.Props
