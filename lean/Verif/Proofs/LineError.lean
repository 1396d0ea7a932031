import Verif.Props.RegressionError
/-
Rounding errors of a quotient of covariance and variance, and of the value of the regression line, from the errors of their parts.
-/
namespace Verif.Props
open Scalar

variable {F : Fmt} {p : Nat} {emin : Int} {u η : ℝ}

/-- The quotient of a covariance with relative error `ε A B` and a variance with error `ε A A`. -/
theorem slope_quotient (hF : F.Binary p emin) (hE : F.Err u η) {A B K V C c v ε : ℝ} (hA0 : 0 ≤ A) (hB0 : 0 ≤ B)
    (hKr : IsRep p emin K) (hKf : F.fits K) (hV : 0 < V) (hVA : V ≤ A * A) (hC : |C| ≤ A * B)
    (hce : |c - C| ≤ ε * (A * B)) (hve : |v - V| ≤ ε * (A * A)) (hcond : 2 * (ε * (A * A)) ≤ V)
    (hη : η ≤ u * (A * B / V)) (hK : 4 * (A * B / V) ≤ K) :
    0 < v ∧ ∃ s : ℝ, (X.fin c / X.fin v : X F) = X.fin s
      ∧ |s - C / V| ≤ 2 * (ε + u) * ((A * B / V) * (1 + A * A / V)) ∧ |s| ≤ 4 * (A * B / V) := by
  have hu := hE.u_nonneg
  have hAA : 0 < A * A := hV.trans_le hVA
  have hAB := mul_nonneg hA0 hB0
  have hε0 : 0 ≤ ε := by
    have := (abs_nonneg _).trans hve
    by_contra h
    push Not at h
    nlinarith
  have hε : ε ≤ 1 / 2 := by
    refine le_of_mul_le_mul_right (a := A * A) ?_ hAA
    linarith
  obtain ⟨hv2, hq⟩ := quotient_error hce hve hV hcond
  have hv0 : 0 < v := by linarith
  refine ⟨hv0, ?_⟩
  set b := A * B / V with hb
  set κ := A * A / V with hκ
  have hb0 : 0 ≤ b := div_nonneg hAB hV.le
  have hκ1 : 1 ≤ κ := by rw [hκ, le_div_iff₀ hV]; linarith
  have hABV : A * B = b * V := by rw [hb]; field_simp
  have hAAV : A * A = κ * V := by rw [hκ]; field_simp
  have hq' : |c / v - C / V| ≤ 2 * (ε * (b * (1 + κ))) := by
    refine hq.trans ?_
    rw [div_le_iff₀ (mul_pos hV hV)]
    have : |C| * (ε * (A * A)) ≤ (A * B) * (ε * (A * A)) := mul_le_mul_of_nonneg_right hC (by positivity)
    rw [hABV, hAAV] at this
    rw [hABV, hAAV]
    nlinarith
  have hcb : |c / v| ≤ 3 * b := by
    rw [abs_div, abs_of_pos hv0, div_le_iff₀ hv0]
    have e : c = (c - C) + C := by ring
    have h1 : |c| ≤ ε * (A * B) + A * B := by
      rw [e]; exact (abs_add_le _ _).trans (add_le_add hce hC)
    have h2 : ε * (A * B) ≤ 1 / 2 * (A * B) := mul_le_mul_of_nonneg_right hε hAB
    have h3 : b * (V / 2) ≤ b * v := mul_le_mul_of_nonneg_left hv2 hb0
    rw [hABV] at h1 h2
    linarith
  have h1 := hE.err (c / v)
  have h2 : u * |c / v| ≤ 3 * (u * b) := by have := mul_le_mul_of_nonneg_left hcb hu; linarith
  obtain ⟨r1, -⟩ := hF.round_le hKr hKf (r := c / v) (hcb.trans (by linarith))
  have hub := mul_nonneg hu hb0
  refine ⟨F.rnd (c / v), by rw [X.div_fin_of_ne _ hv0.ne', r1], ?_, ?_⟩
  · have e : F.rnd (c / v) - C / V = (F.rnd (c / v) - c / v) + (c / v - C / V) := by ring
    rw [e]
    refine (abs_add_le _ _).trans ?_
    have h3 : u * b * 1 ≤ u * b * κ := mul_le_mul_of_nonneg_left hκ1 hub
    have e2 : 2 * (ε + u) * (b * (1 + κ)) = 2 * (ε * (b * (1 + κ))) + 2 * (u * b) + 2 * (u * b * κ) := by ring
    rw [e2]
    linarith
  · have e : F.rnd (c / v) = (F.rnd (c / v) - c / v) + c / v := by ring
    rw [e]
    refine (abs_add_le _ _).trans ?_
    have := mul_le_mul_of_nonneg_right hE.u_le hb0
    linarith

/-- The value of the line with a slope of relative error `e` and means of error `δ A`, `δ B`. -/
theorem line_value (hF : F.Binary p emin) (hE : F.Err u η) {A B K b κ S s mx μx my μy e δ x : ℝ} (hA0 : 0 ≤ A) (hB0 : 0 ≤ B)
    (hb0 : 0 ≤ b) (hκ1 : 1 ≤ κ) (hbA : A * b = κ * B) (he : 0 ≤ e) (hδ : 0 ≤ δ)
    (hKr : IsRep p emin K) (hKf : F.fits K) (hKA : 4 * A ≤ K) (hKB : 24 * (κ * B) ≤ K) (hηA : η ≤ u * A) (hηB : η ≤ u * B)
    (hs : |s - S| ≤ e * (b * (1 + κ))) (hsb : |s| ≤ 4 * b) (hSb : |S| ≤ b)
    (hmx : |mx - μx| ≤ δ * A) (hmxb : |mx| ≤ 2 * A) (hmy : |my - μy| ≤ δ * B) (hmyb : |my| ≤ 2 * B) (hx : |x| ≤ A) :
    ∃ y : ℝ, (X.fin my - X.fin s * (X.fin mx - X.fin x) : X F) = X.fin y
      ∧ |y - (μy - S * (μx - x))| ≤ (4 * e + 22 * u + δ) * (κ * (1 + κ) * B) := by
  have hu := hE.u_nonneg
  have hu8 := hE.u_le
  have huA := mul_nonneg hu hA0
  have huB := mul_nonneg hu hB0
  have huA8 : u * A ≤ 1 / 8 * A := mul_le_mul_of_nonneg_right hu8 hA0
  -- the distance
  have d0 : |mx - x| ≤ 3 * A := (abs_sub _ _).trans (by linarith)
  have d1 := hE.err (mx - x)
  obtain ⟨r1, -⟩ := hF.round_le hKr hKf (r := mx - x) (d0.trans (by linarith))
  set d := F.rnd (mx - x)
  have d2 : u * |mx - x| ≤ 3 * (u * A) := by have := mul_le_mul_of_nonneg_left d0 hu; linarith
  have d3 : |d| ≤ 4 * A := by
    have := abs_add_le (d - (mx - x)) (mx - x)
    rw [sub_add_cancel] at this
    linarith
  have d4 : |d - (μx - x)| ≤ (δ + 4 * u) * A := by
    have e : d - (μx - x) = (d - (mx - x)) + (mx - μx) := by ring
    rw [e]
    refine (abs_add_le _ _).trans ?_
    linarith
  -- the product
  have hκB : B ≤ κ * B := by nlinarith
  have hκB0 : 0 ≤ κ * B := hB0.trans hκB
  have huκB : u * B ≤ u * (κ * B) := mul_le_mul_of_nonneg_left hκB hu
  have t0 : |s * d| ≤ 16 * (κ * B) := by
    rw [abs_mul]
    calc |s| * |d| ≤ 4 * b * (4 * A) := mul_le_mul hsb d3 (abs_nonneg _) (by positivity)
      _ = 16 * (A * b) := by ring
      _ = _ := by rw [hbA]
  have t1 := hE.err (s * d)
  obtain ⟨r2, -⟩ := hF.round_le hKr hKf (r := s * d) (t0.trans (by linarith))
  set t := F.rnd (s * d)
  have t2 : u * |s * d| ≤ 16 * (u * (κ * B)) := by have := mul_le_mul_of_nonneg_left t0 hu; linarith
  have huκB8 : u * (κ * B) ≤ 1 / 8 * (κ * B) := mul_le_mul_of_nonneg_right hu8 hκB0
  have t3 : |t| ≤ 19 * (κ * B) := by
    have := abs_add_le (t - s * d) (s * d)
    rw [sub_add_cancel] at this
    linarith
  have t4 : |t - S * (μx - x)| ≤ 17 * (u * (κ * B)) + 4 * e * (κ * (1 + κ) * B) + (δ + 4 * u) * (κ * B) := by
    have e' : t - S * (μx - x) = (t - s * d) + ((s - S) * d + S * (d - (μx - x))) := by ring
    rw [e']
    refine (abs_add_le _ _).trans ?_
    have i1 : |(s - S) * d| ≤ 4 * e * (κ * (1 + κ) * B) := by
      rw [abs_mul]
      calc |s - S| * |d| ≤ e * (b * (1 + κ)) * (4 * A) := mul_le_mul hs d3 (abs_nonneg _) (by positivity)
        _ = 4 * e * ((A * b) * (1 + κ)) := by ring
        _ = _ := by rw [hbA]; ring
    have i2 : |S * (d - (μx - x))| ≤ (δ + 4 * u) * (κ * B) := by
      rw [abs_mul]
      calc |S| * |d - (μx - x)| ≤ b * ((δ + 4 * u) * A) := mul_le_mul hSb d4 (abs_nonneg _) hb0
        _ = (δ + 4 * u) * (A * b) := by ring
        _ = _ := by rw [hbA]
    have i3 := abs_add_le ((s - S) * d) (S * (d - (μx - x)))
    linarith
  -- the result
  have y0 : |my - t| ≤ 21 * (κ * B) := (abs_sub _ _).trans (by linarith)
  have y1 := hE.err (my - t)
  obtain ⟨r3, -⟩ := hF.round_le hKr hKf (r := my - t) (y0.trans (by linarith))
  have y2 : u * |my - t| ≤ 21 * (u * (κ * B)) := by have := mul_le_mul_of_nonneg_left y0 hu; linarith
  refine ⟨F.rnd (my - t), by rw [X.sub_fin, r1, X.mul_fin, r2, X.sub_fin, r3], ?_⟩
  have e' : F.rnd (my - t) - (μy - S * (μx - x)) = (F.rnd (my - t) - (my - t)) + ((my - μy) - (t - S * (μx - x))) := by ring
  rw [e']
  refine (abs_add_le _ _).trans ?_
  have i1 := abs_sub (my - μy) (t - S * (μx - x))
  have i2 : δ * B ≤ δ * (κ * B) := mul_le_mul_of_nonneg_left hκB hδ
  have i3 : u * (κ * B) * 1 ≤ u * (κ * B) * κ := mul_le_mul_of_nonneg_left hκ1 (by positivity)
  have i4 : δ * (κ * B) * 1 ≤ δ * (κ * B) * κ := mul_le_mul_of_nonneg_left hκ1 (by positivity)
  have e2 : (4 * e + 22 * u + δ) * (κ * (1 + κ) * B)
      = 4 * e * (κ * (1 + κ) * B) + 22 * (u * (κ * B)) + 22 * (u * (κ * B) * κ) + δ * (κ * B) + δ * (κ * B) * κ := by ring
  rw [e2]
  linarith

end Verif.Props
