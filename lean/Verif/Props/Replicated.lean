import Verif.Props.CumulativeMoments
import Verif.Props.CumulativePairs
/-
C196: data in which every value occurs `k` times as often.
-/
namespace Verif.Spec

/-- `ys` contains, in any order, every element of `xs` `k` times as often. -/
def Copies {β : Type} (k : Nat) (xs ys : List β) : Prop := ys.Perm (List.replicate k xs).flatten

variable {β : Type} {k : Nat}

theorem Copies.length {xs ys : List β} (h : Copies k xs ys) : ys.length = k * xs.length := by
  rw [List.Perm.length_eq h]; simp

theorem Copies.sum {xs ys : List β} (h : Copies k xs ys) (f : β → ℝ) : (ys.map f).sum = k * (xs.map f).sum := by
  rw [(List.Perm.map f h).sum_eq]
  clear h
  induction k with
  | zero => simp
  | succ k ih => rw [List.replicate_succ, List.flatten_cons, List.map_append, List.sum_append, ih]; push_cast; ring

theorem Copies.map {γ : Type} {xs ys : List β} (h : Copies k xs ys) (f : β → γ) : Copies k (xs.map f) (ys.map f) := by
  unfold Copies at *
  have := List.Perm.map f h
  rwa [List.map_flatten, List.map_replicate] at this

theorem Copies.mean (hk : 1 ≤ k) {xs ys : List ℝ} (h : Copies k xs ys) : Spec.mean ys = Spec.mean xs := by
  have hk' : (k : ℝ) ≠ 0 := by exact_mod_cast (show k ≠ 0 by omega)
  have := h.sum id
  rw [List.map_id, List.map_id] at this
  rw [Spec.mean, Spec.mean, this, h.length]
  push_cast
  rw [mul_div_mul_left _ _ hk']

theorem Copies.central (hk : 1 ≤ k) {xs ys : List ℝ} (h : Copies k xs ys) (j : Nat) : Spec.central j ys = k * Spec.central j xs := by
  rw [Spec.central, Spec.central, h.mean hk, h.sum]

theorem Copies.variance (hk : 1 ≤ k) {xs ys : List ℝ} (h : Copies k xs ys) : Spec.variance ys = Spec.variance xs := by
  have hk' : (k : ℝ) ≠ 0 := by exact_mod_cast (show k ≠ 0 by omega)
  rw [Spec.variance, Spec.variance, h.central hk, h.length]
  push_cast
  rw [mul_div_mul_left _ _ hk']

theorem Copies.skewness (hk : 1 ≤ k) {xs ys : List ℝ} (h : Copies k xs ys) : Spec.skewness ys = Spec.skewness xs := by
  have hk' : (k : ℝ) ≠ 0 := by exact_mod_cast (show k ≠ 0 by omega)
  rw [Spec.skewness, Spec.skewness, h.central hk, h.variance hk, h.length]
  push_cast
  rw [mul_div_mul_left _ _ hk']

theorem Copies.kurtosis (hk : 1 ≤ k) {xs ys : List ℝ} (h : Copies k xs ys) : Spec.kurtosis ys = Spec.kurtosis xs := by
  have hk' : (k : ℝ) ≠ 0 := by exact_mod_cast (show k ≠ 0 by omega)
  rw [Spec.kurtosis, Spec.kurtosis, h.central hk, h.variance hk, h.length]
  push_cast
  rw [mul_div_mul_left _ _ hk']

theorem Copies.cosum (hk : 1 ≤ k) {ps qs : List (ℝ × ℝ)} (h : Copies k ps qs) : Spec.cosum qs = k * Spec.cosum ps := by
  rw [Spec.cosum, Spec.cosum, Spec.xsOf, Spec.ysOf, (h.map Prod.fst).mean hk, (h.map Prod.snd).mean hk, h.sum]; rfl

theorem Copies.covariance (hk : 1 ≤ k) {ps qs : List (ℝ × ℝ)} (h : Copies k ps qs) : Spec.covariance qs = Spec.covariance ps := by
  have hk' : (k : ℝ) ≠ 0 := by exact_mod_cast (show k ≠ 0 by omega)
  rw [Spec.covariance, Spec.covariance, h.cosum hk, h.length]
  push_cast
  rw [mul_div_mul_left _ _ hk']

end Verif.Spec

namespace Verif.Props
open Scalar Exact Cumulative

variable {w k : Nat} {ε : ℝ}

/-- C196: mean and variance do not change; the unbiased variance is multiplied by `(k n - k) / (k n - 1)`. -/
theorem C196_variance (hk : 1 ≤ k) (ops ops' : List (Op ℝ)) (hc : Spec.Copies k (sinceClear ops) (sinceClear ops'))
    (h : (sinceClear ops').length < 2 ^ w) (hne : sinceClear ops ≠ []) :
    (Variance.run (finOps ops') : Variance w (E ε)).getMean = (Variance.run (finOps ops) : Variance w (E ε)).getMean
    ∧ (Variance.run (finOps ops') : Variance w (E ε)).variance = (Variance.run (finOps ops) : Variance w (E ε)).variance
    ∧ (2 ≤ (sinceClear ops).length → ∃ u : ℝ, (Variance.run (finOps ops) : Variance w (E ε)).unbiasedVariance = X.fin u
      ∧ (Variance.run (finOps ops') : Variance w (E ε)).unbiasedVariance
        = X.fin ((k * (sinceClear ops).length - k) / (k * (sinceClear ops).length - 1) * u)) := by
  have hl := List.length_pos_iff.2 hne
  have hlen := hc.length
  have hge : (sinceClear ops).length ≤ (sinceClear ops').length := by rw [hlen]; exact Nat.le_mul_of_pos_left _ hk
  have h' : (sinceClear ops).length < 2 ^ w := by omega
  refine ⟨?_, ?_, fun h2 => ⟨_, ((C02_variance ops h').2 h2).1, ?_⟩⟩
  · rw [((C01_mean_inherited _).1.1).trans (C01_mean ops' h).1, ((C01_mean_inherited _).1.1).trans (C01_mean ops h').1, hc.mean hk]
  · rw [((C02_variance ops' h).1 (by omega)).1, ((C02_variance ops h').1 hl).1, hc.variance hk]
  · rw [((C02_variance ops' h).2 (by omega)).1, X.fin_inj, Spec.sampleVariance, Spec.sampleVariance, hc.central hk, hlen]
    have : (2 : ℝ) ≤ (sinceClear ops).length := by exact_mod_cast h2
    have h1 : ((sinceClear ops).length : ℝ) - 1 ≠ 0 := by linarith
    have hk1 : (1 : ℝ) ≤ k := by exact_mod_cast hk
    have h3 : (k : ℝ) * (sinceClear ops).length - 1 ≠ 0 := by nlinarith
    push_cast
    field_simp

/-- C196: above the cut-offs, skewness and kurtosis do not change. -/
theorem C196_shape (hε : 0 < ε) (hk : 1 ≤ k) (ops ops' : List (Op ℝ)) (hc : Spec.Copies k (sinceClear ops) (sinceClear ops'))
    (h : (sinceClear ops').length * (sinceClear ops').length < 2 ^ w) (hne : sinceClear ops ≠ []) :
    (ε ≤ Spec.central 3 (sinceClear ops) →
      (Skewness.run (finOps ops') : Skewness w (E ε)).skewness = (Skewness.run (finOps ops) : Skewness w (E ε)).skewness)
    ∧ (ε ≤ Spec.central 4 (sinceClear ops) →
      (Kurtosis.run (finOps ops') : Kurtosis w (E ε)).kurtosis = (Kurtosis.run (finOps ops) : Kurtosis w (E ε)).kurtosis) := by
  have hl := List.length_pos_iff.2 hne
  have hlen := hc.length
  have hge : (sinceClear ops).length ≤ (sinceClear ops').length := by rw [hlen]; exact Nat.le_mul_of_pos_left _ hk
  have h' : (sinceClear ops).length * (sinceClear ops).length < 2 ^ w := lt_of_le_of_lt (Nat.mul_le_mul hge hge) h
  have hk1 : (1 : ℝ) ≤ k := by exact_mod_cast hk
  constructor
  · intro h3
    have h3' : ε ≤ Spec.central 3 (sinceClear ops') := by rw [hc.central hk]; nlinarith
    rw [skewness_result hε ops' (by nlinarith), skewness_result hε ops (by nlinarith), if_neg (by linarith), if_neg (by linarith), hc.skewness hk]
  · intro h4
    have h4' : ε ≤ Spec.central 4 (sinceClear ops') := by rw [hc.central hk]; nlinarith
    rw [((C04_kurtosis hε ops' h).2 h4').1, ((C04_kurtosis hε ops h').2 h4).1, hc.kurtosis hk]

/-- C196: covariance, correlation and regression line do not change. -/
theorem C196_pairs (hε : 0 < ε) (hk : 1 ≤ k) (ops ops' : List (Op (ℝ × ℝ))) (hc : Spec.Copies k (sinceClear ops) (sinceClear ops'))
    (h : (sinceClear ops').length < 2 ^ w) (hne : sinceClear ops ≠ []) :
    (Comoment.run (finOps2 ops') : Comoment w (E ε)).variance = (Comoment.run (finOps2 ops) : Comoment w (E ε)).variance
    ∧ (Correlation.run (finOps2 ops') : Correlation w (E ε)).value = (Correlation.run (finOps2 ops) : Correlation w (E ε)).value
    ∧ (Regression.run (finOps2 ops') : Regression w (E ε)).slope = (Regression.run (finOps2 ops) : Regression w (E ε)).slope
    ∧ ∀ x : ℝ, (Regression.run (finOps2 ops') : Regression w (E ε)).at' (X.fin x)
      = (Regression.run (finOps2 ops) : Regression w (E ε)).at' (X.fin x) := by
  have hl := List.length_pos_iff.2 hne
  have hlen := hc.length
  have hge : (sinceClear ops).length ≤ (sinceClear ops').length := by rw [hlen]; exact Nat.le_mul_of_pos_left _ hk
  have h' : (sinceClear ops).length < 2 ^ w := by omega
  have hl' : 1 ≤ (sinceClear ops').length := by omega
  have hk' : (k : ℝ) ≠ 0 := by exact_mod_cast (show k ≠ 0 by omega)
  have hx : Spec.Copies k (Spec.xsOf (sinceClear ops)) (Spec.xsOf (sinceClear ops')) := hc.map Prod.fst
  have hy : Spec.Copies k (Spec.ysOf (sinceClear ops)) (Spec.ysOf (sinceClear ops')) := hc.map Prod.snd
  obtain ⟨s1, a1⟩ := regression_result (w := w) (ε := ε) ops h' hl
  obtain ⟨s2, a2⟩ := regression_result (w := w) (ε := ε) ops' h hl'
  have hb : (if Spec.central 2 (Spec.xsOf (sinceClear ops')) = 0 then 0 else Spec.cosum (sinceClear ops') / Spec.central 2 (Spec.xsOf (sinceClear ops')))
      = if Spec.central 2 (Spec.xsOf (sinceClear ops)) = 0 then 0 else Spec.cosum (sinceClear ops) / Spec.central 2 (Spec.xsOf (sinceClear ops)) := by
    rw [hx.central hk, hc.cosum hk, mul_div_mul_left _ _ hk']
    simp only [mul_eq_zero, hk', false_or]
  have c1 := correlation_result (w := w) hε ops h' hl
  have c2 := correlation_result (w := w) hε ops' h hl'
  simp only at c1 c2
  refine ⟨?_, ?_, ?_, fun x => ?_⟩
  · rw [(C09_covariance ops' h).2.2.1 hl', (C09_covariance ops h').2.2.1 hl, hc.covariance hk]
  · rw [c1, c2, hx.variance hk, hy.variance hk, hc.covariance hk]
  · rw [s1, s2, hb]
  · rw [a1, a2, hb, hx.mean hk, hy.mean hk]

/-- 1, 2, 6 and 6, 2, 1, 1, 2, 6 have the same variance. -/
example : (Variance.run (finOps [.push 6, .push 2, .push 1, .push 1, .push 2, .push 6]) : Variance 64 (E ε)).variance
    = (Variance.run (finOps [.push 1, .push 2, .push 6]) : Variance 64 (E ε)).variance := by
  have e : sinceClear ([.push 1, .push 2, .push 6] : List (Op ℝ)) = [1, 2, 6] := rfl
  have e' : sinceClear ([.push 6, .push 2, .push 1, .push 1, .push 2, .push 6] : List (Op ℝ)) = [6, 2, 1] ++ [1, 2, 6] := rfl
  refine (C196_variance (w := 64) (k := 2) (by norm_num) _ _ ?_ (by rw [e']; simp) (by rw [e]; simp)).2.1
  rw [e, e']
  show ([6, 2, 1] ++ [1, 2, 6] : List ℝ).Perm ([1, 2, 6] ++ [1, 2, 6])
  refine List.Perm.append_right _ ?_
  exact (List.reverse_perm [1, 2, 6])

/-- 1, 2, 6 once and twice have the same skewness and kurtosis: the third sum is 18, the fourth 98. -/
example : (Skewness.run (finOps [.push 1, .push 2, .push 6, .push 1, .push 2, .push 6]) : Skewness 64 (E 1)).skewness
      = (Skewness.run (finOps [.push 1, .push 2, .push 6]) : Skewness 64 (E 1)).skewness
    ∧ (Kurtosis.run (finOps [.push 1, .push 2, .push 6, .push 1, .push 2, .push 6]) : Kurtosis 64 (E 1)).kurtosis
      = (Kurtosis.run (finOps [.push 1, .push 2, .push 6]) : Kurtosis 64 (E 1)).kurtosis := by
  have e : sinceClear ([.push 1, .push 2, .push 6] : List (Op ℝ)) = [1, 2, 6] := rfl
  have e' : sinceClear ([.push 1, .push 2, .push 6, .push 1, .push 2, .push 6] : List (Op ℝ)) = [1, 2, 6] ++ [1, 2, 6] := rfl
  have := C196_shape (w := 64) (k := 2) (ε := 1) one_pos (by norm_num) [.push 1, .push 2, .push 6]
    [.push 1, .push 2, .push 6, .push 1, .push 2, .push 6] (by rw [e, e']; exact List.Perm.refl _) (by rw [e']; simp) (by rw [e]; simp)
  exact ⟨this.1 (by rw [e]; norm_num [Spec.central, Spec.mean]), this.2 (by rw [e]; norm_num [Spec.central, Spec.mean])⟩

/-- (0, 1), (1, 3) once and twice, the copies interleaved, have the same slope. -/
example : (Regression.run (finOps2 [.push (0, 1), .push (0, 1), .push (1, 3), .push (1, 3)]) : Regression 64 (E 1)).slope
    = (Regression.run (finOps2 [.push (0, 1), .push (1, 3)]) : Regression 64 (E 1)).slope := by
  have e : sinceClear ([.push (0, 1), .push (1, 3)] : List (Op (ℝ × ℝ))) = [(0, 1), (1, 3)] := rfl
  have e' : sinceClear ([.push (0, 1), .push (0, 1), .push (1, 3), .push (1, 3)] : List (Op (ℝ × ℝ))) = [(0, 1), (0, 1), (1, 3), (1, 3)] := rfl
  refine (C196_pairs (w := 64) (k := 2) one_pos (by norm_num) _ _ ?_ (by rw [e']; simp) (by rw [e]; simp)).2.2.1
  rw [e, e']
  exact List.Perm.cons _ (List.Perm.swap _ _ _)

end Verif.Props
