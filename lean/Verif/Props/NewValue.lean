import Verif.Props.CumulativeMoments
import Verif.Props.CumulativePairs
import Verif.Props.Decay
import Mathlib.Tactic.LinearCombination
/-
C194: how a new value changes mean, variance and regression line.
-/
namespace Verif.Spec

theorem variance_snoc {xs : List ℝ} (hne : xs ≠ []) (x : ℝ) :
    variance (xs ++ [x]) - variance xs
      = (xs.length * (x - mean xs) ^ 2 / (xs.length + 1) - variance xs) / (xs.length + 1) := by
  have hn := length_pos hne
  rw [variance, variance, central_two_snoc, mean_snoc, List.length_append, List.length_singleton]
  push_cast
  field_simp
  ring

theorem sampleVariance_snoc {xs : List ℝ} (h : 2 ≤ xs.length) (x : ℝ) :
    sampleVariance (xs ++ [x]) - sampleVariance xs
      = (xs.length * (x - mean xs) ^ 2 / (xs.length + 1) - sampleVariance xs) / xs.length := by
  have hn : (0 : ℝ) < xs.length - 1 := by
    have : (2 : ℝ) ≤ xs.length := by exact_mod_cast h
    linarith
  have h1 : (0 : ℝ) < xs.length := by linarith
  rw [sampleVariance, sampleVariance, central_two_snoc, mean_snoc, List.length_append, List.length_singleton]
  push_cast
  rw [add_sub_cancel_right]
  have := hn.ne'
  field_simp
  ring

/-- The exponentially weighted mean moves by a share of the distance. -/
theorem ewMean_snoc {f : ℝ} (h0 : 0 < f) (h1 : f ≤ 1) {xs : List ℝ} (hne : xs ≠ []) (x : ℝ) :
    ewMean f (xs ++ [x]) = ewMean f xs + f / (1 - (1 - f) ^ (xs.length + 1)) * (x - ewMean f xs) := by
  have hl := List.length_pos_iff.2 hne
  have hlt : ∀ n : Nat, 1 ≤ n → (0 : ℝ) < 1 - (1 - f) ^ n := by
    intro n hn
    have := pow_le_of_le_one (by linarith : 0 ≤ 1 - f) (by linarith : 1 - f ≤ 1) (show n ≠ 0 by omega)
    linarith
  have a := hlt xs.length hl
  have b := hlt (xs.length + 1) (by omega)
  have e : ewSum f xs = ewMean f xs * (1 - (1 - f) ^ xs.length) := by rw [ewMean, div_mul_cancel₀ _ a.ne']
  rw [ewMean, ewSum_snoc, List.length_append, List.length_singleton, e, div_eq_iff b.ne', add_mul, mul_comm (f / _), mul_assoc,
    div_mul_cancel₀ _ b.ne', pow_succ]
  ring

end Verif.Spec

namespace Verif.Props
open Scalar Exact

variable {w : Nat} {ε : ℝ}

open Cumulative in
/-- C194: a new value `x` raises the variance if and only if `n (x - m)² > (n + 1) v`, and leaves it if and only if the
two sides are equal; the same for the unbiased variance. -/
theorem C194_variance (ops : List (Op ℝ)) (x : ℝ) (h : (sinceClear ops).length + 1 < 2 ^ w) (hne : sinceClear ops ≠ []) :
    ∃ m v v' : ℝ, (Variance.run (finOps ops) : Variance w (E ε)).getMean = X.fin m
      ∧ (Variance.run (finOps ops) : Variance w (E ε)).variance = X.fin v
      ∧ (Variance.run (finOps (ops ++ [.push x])) : Variance w (E ε)).variance = X.fin v'
      ∧ (v < v' ↔ ((sinceClear ops).length + 1) * v < (sinceClear ops).length * (x - m) ^ 2)
      ∧ (v' = v ↔ ((sinceClear ops).length + 1) * v = (sinceClear ops).length * (x - m) ^ 2)
      ∧ (2 ≤ (sinceClear ops).length → ∃ u u' : ℝ, (Variance.run (finOps ops) : Variance w (E ε)).unbiasedVariance = X.fin u
        ∧ (Variance.run (finOps (ops ++ [.push x])) : Variance w (E ε)).unbiasedVariance = X.fin u'
        ∧ (u < u' ↔ ((sinceClear ops).length + 1) * u < (sinceClear ops).length * (x - m) ^ 2)) := by
  have hl := List.length_pos_iff.2 hne
  have hn := Spec.length_pos hne
  have e := sinceClear_append_push ops x
  have h' : (sinceClear (ops ++ [.push x])).length < 2 ^ w := by rw [e, List.length_append]; exact h
  have h'' : (sinceClear ops).length < 2 ^ w := by omega
  have hd := Spec.variance_snoc hne x
  have key : ∀ v : ℝ, (0 < (sinceClear ops).length * (x - Spec.mean (sinceClear ops)) ^ 2 / ((sinceClear ops).length + 1) - v
      ↔ ((sinceClear ops).length + 1) * v < (sinceClear ops).length * (x - Spec.mean (sinceClear ops)) ^ 2) := by
    intro v
    rw [sub_pos, lt_div_iff₀ (by positivity), mul_comm]
  refine ⟨Spec.mean (sinceClear ops), Spec.variance (sinceClear ops), Spec.variance (sinceClear ops ++ [x]),
    ((C01_mean_inherited _).1.1).trans (C01_mean ops h'').1, ((C02_variance ops h'').1 hl).1, ?_, ?_, ?_, ?_⟩
  · have := ((C02_variance (w := w) (ε := ε) _ h').1 (by rw [e]; simp)).1
    rwa [e] at this
  · rw [← sub_pos, hd, div_pos_iff_of_pos_right (by positivity), key]
  · rw [← sub_eq_zero, hd, div_eq_zero_iff, or_iff_left (by positivity), sub_eq_zero, div_eq_iff (by positivity), eq_comm, mul_comm]
  · intro h2
    refine ⟨_, Spec.sampleVariance (sinceClear ops ++ [x]), ((C02_variance ops h'').2 h2).1, ?_, ?_⟩
    · have := ((C02_variance (w := w) (ε := ε) _ h').2 (by rw [e]; simp; omega)).1
      rwa [e] at this
    · rw [← sub_pos, Spec.sampleVariance_snoc h2, div_pos_iff_of_pos_right hn, key]

open Cumulative in
/-- C194: a new value moves the mean by the share `1 / (n + 1)` of the distance. -/
theorem C194_mean (ops : List (Op ℝ)) (x : ℝ) (h : (sinceClear ops).length + 1 < 2 ^ w) :
    ∃ m m' : ℝ, (Mean.run (finOps ops) : Mean w (E ε)).getMean = X.fin m
      ∧ (Mean.run (finOps (ops ++ [.push x])) : Mean w (E ε)).getMean = X.fin m'
      ∧ m' - m = (x - m) / ((sinceClear ops).length + 1) := by
  have e := sinceClear_append_push ops x
  refine ⟨_, Spec.mean (sinceClear ops ++ [x]), (C01_mean ops (by omega)).1, ?_, by rw [Spec.mean_snoc]; ring⟩
  have := (C01_mean (w := w) (ε := ε) (ops ++ [.push x]) (by rw [e, List.length_append]; exact h)).1
  rwa [e] at this

open Decay in
/-- C194: a new value moves the decaying mean by the share `f / (1 - (1 - f)^(n + 1))` of the distance, which is at least
`f` and at most 1. -/
theorem C194_decay {f : ℝ} (h0 : 0 < f) (h1 : f ≤ 1) (ops : List (Op ℝ)) (hne : sinceClear ops ≠ []) (x : ℝ) :
    ∃ m m' : ℝ, (Mean.run (X.fin f) (finOps ops) : Mean (E ε)).mean = X.fin m
      ∧ (Mean.run (X.fin f) (finOps (ops ++ [.push x])) : Mean (E ε)).mean = X.fin m'
      ∧ m' - m = f / (1 - (1 - f) ^ ((sinceClear ops).length + 1)) * (x - m)
      ∧ f ≤ f / (1 - (1 - f) ^ ((sinceClear ops).length + 1)) ∧ f / (1 - (1 - f) ^ ((sinceClear ops).length + 1)) ≤ 1 := by
  have e := sinceClear_append_push ops x
  have hp0 : 0 ≤ (1 - f) ^ ((sinceClear ops).length + 1) := pow_nonneg (by linarith) _
  have hp1 : (1 - f) ^ ((sinceClear ops).length + 1) ≤ 1 - f :=
    pow_le_of_le_one (by linarith) (by linarith) (Nat.succ_ne_zero (sinceClear ops).length)
  refine ⟨_, Spec.ewMean f (sinceClear ops ++ [x]), C25_decay_mean h0 h1 ops, ?_, by rw [Spec.ewMean_snoc h0 h1 hne]; ring, ?_, ?_⟩
  · rw [C25_decay_mean h0 h1, e]
  · rw [le_div_iff₀ (by linarith)]; nlinarith
  · rw [div_le_one (by linarith)]; linarith

open Cumulative in
/-- C194: a new point `(x, y)` pulls the regression line towards itself: its distance from the new line is the share `l`
of its distance from the old line, with `0 ≤ l ≤ n / (n + 1)`. -/
theorem C194_regression (ops : List (Op (ℝ × ℝ))) (x y : ℝ) (h : (sinceClear ops).length + 1 < 2 ^ w) (hne : sinceClear ops ≠ []) :
    ∃ a a' l : ℝ, (Regression.run (finOps2 ops) : Regression w (E ε)).at' (X.fin x) = X.fin a
      ∧ (Regression.run (finOps2 (ops ++ [.push (x, y)])) : Regression w (E ε)).at' (X.fin x) = X.fin a'
      ∧ y - a' = l * (y - a) ∧ 0 ≤ l ∧ l ≤ (sinceClear ops).length / ((sinceClear ops).length + 1) := by
  have hl := List.length_pos_iff.2 hne
  have hn : (0 : ℝ) < (sinceClear ops).length := by exact_mod_cast hl
  have e := sinceClear_append_push ops (x, y)
  obtain ⟨-, hat⟩ := regression_result (w := w) (ε := ε) ops (by omega) hl
  obtain ⟨-, hat'⟩ := regression_result (w := w) (ε := ε) (ops ++ [.push (x, y)]) (by rw [e, List.length_append]; exact h) (by rw [e]; simp)
  have hax := hat x
  have hax' := hat' x
  rw [e] at hax'
  refine ⟨_, _, if Spec.central 2 (Spec.xsOf (sinceClear ops ++ [(x, y)])) = 0 then (sinceClear ops).length / ((sinceClear ops).length + 1)
    else (sinceClear ops).length / ((sinceClear ops).length + 1) * (Spec.central 2 (Spec.xsOf (sinceClear ops))
      / Spec.central 2 (Spec.xsOf (sinceClear ops ++ [(x, y)]))), hax, hax', ?_⟩
  clear hat hat' hax hax' h hl hne
  generalize sinceClear ops = ps at *
  have hA := Spec.central_two_nonneg (Spec.xsOf ps)
  have hA' := Spec.central_two_nonneg (Spec.xsOf (ps ++ [(x, y)]))
  have hx : Spec.mean (Spec.xsOf (ps ++ [(x, y)])) = Spec.mean (Spec.xsOf ps) + (x - Spec.mean (Spec.xsOf ps)) / (ps.length + 1) := by
    simp [Spec.mean_snoc]
  have hy : Spec.mean (Spec.ysOf (ps ++ [(x, y)])) = Spec.mean (Spec.ysOf ps) + (y - Spec.mean (Spec.ysOf ps)) / (ps.length + 1) := by
    simp [Spec.mean_snoc]
  have hc : Spec.central 2 (Spec.xsOf (ps ++ [(x, y)])) = Spec.central 2 (Spec.xsOf ps)
      + ps.length / (ps.length + 1) * (x - Spec.mean (Spec.xsOf ps)) ^ 2 := by
    have : Spec.xsOf (ps ++ [(x, y)]) = Spec.xsOf ps ++ [x] := by simp [Spec.xsOf]
    rw [this, Spec.central_two_snoc, Spec.mean_snoc, Spec.length_xsOf]
    field_simp; ring
  have hs : Spec.cosum (ps ++ [(x, y)]) = Spec.cosum ps
      + ps.length / (ps.length + 1) * ((x - Spec.mean (Spec.xsOf ps)) * (y - Spec.mean (Spec.ysOf ps))) := by
    rw [Spec.cosum_snoc, hx]
    field_simp; ring
  have hC0 : Spec.central 2 (Spec.xsOf ps) = 0 → Spec.cosum ps = 0 := Spec.cosum_eq_zero_of
  rw [hx, hy, hs]
  have hq : (ps.length : ℝ) / (ps.length + 1) ≤ 1 := by rw [div_le_one (by positivity)]; linarith
  have hq0 : (0 : ℝ) < ps.length / (ps.length + 1) := by positivity
  split_ifs with c1 c2 c2
  · -- all `x` are equal
    have : (x - Spec.mean (Spec.xsOf ps)) ^ 2 = 0 := by
      rw [hc] at c1
      have := mul_nonneg hq0.le (sq_nonneg (x - Spec.mean (Spec.xsOf ps)))
      have : ps.length / (ps.length + 1) * (x - Spec.mean (Spec.xsOf ps)) ^ 2 = 0 := by linarith
      exact (mul_eq_zero.1 this).resolve_left hq0.ne'
    refine ⟨?_, hq0.le, le_rfl⟩
    field_simp; ring
  · exfalso
    rw [hc] at c1
    have := mul_nonneg hq0.le (sq_nonneg (x - Spec.mean (Spec.xsOf ps)))
    exact c2 (by linarith)
  · -- the first different `x`: the line passes through the point
    rw [hC0 c2, c2, zero_add, zero_div, mul_zero, zero_mul]
    rw [hc, c2, zero_add] at c1 ⊢
    have hd : x - Spec.mean (Spec.xsOf ps) ≠ 0 := by rintro h0; rw [h0] at c1; simp at c1
    refine ⟨?_, le_rfl, hq0.le⟩
    field_simp; ring
  · refine ⟨?_, mul_nonneg hq0.le (div_nonneg hA hA'), ?_⟩
    · rw [hc] at c1 ⊢
      generalize Spec.central 2 (Spec.xsOf ps) = A at *
      generalize Spec.cosum ps = C at *
      generalize hD : A + ps.length / (ps.length + 1) * (x - Spec.mean (Spec.xsOf ps)) ^ 2 = D at *
      have hn1 : (ps.length : ℝ) + 1 ≠ 0 := by positivity
      have hA0 : A = D - ps.length / (ps.length + 1) * (x - Spec.mean (Spec.xsOf ps)) ^ 2 := by rw [← hD]; ring
      field_simp
      field_simp at hA0
      linear_combination (-(ps.length * (y - Spec.mean (Spec.ysOf ps)))) * hA0
    · refine mul_le_of_le_one_right hq0.le ?_
      rw [div_le_one (lt_of_le_of_ne hA' (Ne.symm c1)), hc]
      have := mul_nonneg hq0.le (sq_nonneg (x - Spec.mean (Spec.xsOf ps)))
      linarith

/-- The variance of 1, 3 rises with the new value 4 (2 * 4 > 3 * 1). -/
example : ∃ v v' : ℝ, (Cumulative.Variance.run (finOps [.push 1, .push 3]) : Cumulative.Variance 64 (E ε)).variance = X.fin v
    ∧ (Cumulative.Variance.run (finOps [.push 1, .push 3, .push 4]) : Cumulative.Variance 64 (E ε)).variance = X.fin v' ∧ v < v' := by
  have e : sinceClear ([.push 1, .push 3] : List (Op ℝ)) = [1, 3] := rfl
  obtain ⟨m, v, v', h1, h2, h3, h4, -⟩ := C194_variance (w := 64) (ε := ε) [.push 1, .push 3] 4 (by rw [e]; norm_num) (by rw [e]; simp)
  refine ⟨v, v', h2, h3, h4.2 ?_⟩
  have hm := h1.symm.trans (((C01_mean_inherited _).1.1).trans (C01_mean (w := 64) _ (by rw [e]; norm_num)).1)
  have hv := h2.symm.trans ((C02_variance (w := 64) _ (by rw [e]; norm_num)).1 (by rw [e]; simp)).1
  rw [X.fin_inj, e] at hm hv
  rw [e, hm, hv]
  norm_num [Spec.mean, Spec.variance, Spec.central]

/-- The line through (0, 0), (1, 1) and the new point (2, 5). -/
example : ∃ a a' l : ℝ, (Cumulative.Regression.run (finOps2 [.push (0, 0), .push (1, 1)]) : Cumulative.Regression 64 (E ε)).at' (X.fin 2) = X.fin a
    ∧ (Cumulative.Regression.run (finOps2 [.push (0, 0), .push (1, 1), .push (2, 5)]) : Cumulative.Regression 64 (E ε)).at' (X.fin 2) = X.fin a'
    ∧ 5 - a' = l * (5 - a) ∧ 0 ≤ l ∧ l ≤ 2 / 3 := by
  have e : sinceClear ([.push (0, 0), .push (1, 1)] : List (Op (ℝ × ℝ))) = [(0, 0), (1, 1)] := rfl
  obtain ⟨a, a', l, h1, h2, h3, h4, h5⟩ := C194_regression (w := 64) (ε := ε) [.push (0, 0), .push (1, 1)] 2 5 (by rw [e]; norm_num) (by rw [e]; simp)
  refine ⟨a, a', l, h1, h2, h3, h4, h5.trans (le_of_eq ?_)⟩
  rw [e]; norm_num

end Verif.Props
