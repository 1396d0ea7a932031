import Verif.Props.StepRamp
import Verif.Props.Response
import Mathlib.Analysis.Complex.Basic
import Mathlib.Analysis.Normed.Field.Basic
import Mathlib.Analysis.Complex.Trigonometric
/-
C169: response of the filters to an oscillation.

The oscillation of amplitude `|k|` around `K` is `K + Re (k z^j)` with `|z| = 1`; for `z = exp (i θ)` and `k = A exp (i φ)`
this is `K + A cos (j θ + φ)`.
-/
namespace Verif.Props
open Exact

variable {ε : ℝ} {w N W : ℕ}

/-- Value number `j` of the oscillation. -/
noncomputable def wave (K : ℝ) (k z : ℂ) (j : ℕ) : ℝ := K + (k * z ^ j).re

/-- The first `n` values. -/
noncomputable def tone (K : ℝ) (k z : ℂ) (n : ℕ) : List ℝ := (List.range n).map (wave K k z)

/-- The meaning of `wave`. -/
theorem wave_cos (K A φ θ : ℝ) (j : ℕ) :
    wave K (A * Complex.exp (φ * Complex.I)) (Complex.exp (θ * Complex.I)) j = K + A * Real.cos (j * θ + φ) := by
  rw [wave, mul_assoc, ← Complex.exp_nat_mul, ← Complex.exp_add, Complex.re_ofReal_mul,
    show φ * Complex.I + j * (θ * Complex.I) = ((j * θ + φ : ℝ) : ℂ) * Complex.I by push_cast; ring,
    Complex.exp_ofReal_mul_I_re]

@[simp] theorem tone_length (K : ℝ) (k z : ℂ) (n : ℕ) : (tone K k z n).length = n := by simp [tone]

theorem tone_take (K : ℝ) (k z : ℂ) (n j : ℕ) (h : j ≤ n) : (tone K k z n).take j = tone K k z j := by
  apply List.ext_getElem
  · simp [h]
  · intro i h1 h2
    simp [tone]

theorem tone_drop (K : ℝ) (k z : ℂ) (n j : ℕ) : (tone K k z n).drop j = tone K (k * z ^ j) z (n - j) := by
  apply List.ext_getElem
  · simp
  · intro i h1 h2
    simp [tone, wave, pow_add, mul_assoc]

theorem tone_succ (K : ℝ) (k z : ℂ) (n : ℕ) : tone K k z (n + 1) = tone K k z n ++ [wave K k z n] := by
  rw [tone, List.range_succ, List.map_append]; rfl

theorem tone_sum (K : ℝ) (k z : ℂ) (n : ℕ) : (tone K k z n).sum = n * K + (k * ∑ j ∈ Finset.range n, z ^ j).re := by
  induction n with
  | zero => simp [tone]
  | succ n ih =>
    rw [tone_succ, List.sum_append, ih, Finset.sum_range_succ, mul_add, Complex.add_re]
    push_cast
    simp [wave]
    ring

theorem tone_mean (K : ℝ) (k z : ℂ) {n : ℕ} (hn : 1 ≤ n) :
    Spec.mean (tone K k z n) = K + (k * ∑ j ∈ Finset.range n, z ^ j).re / n := by
  have h0 : (n : ℝ) ≠ 0 := by positivity
  rw [Spec.mean, tone_sum, tone_length]
  field_simp

theorem geom_zero {z : ℂ} (hz : z ≠ 1) (hN : z ^ N = 1) : ∑ j ∈ Finset.range N, z ^ j = 0 := by
  rw [geom_sum_eq hz, hN, sub_self, zero_div]

theorem abs_re_geom_le {k z : ℂ} (h1 : ‖z‖ = 1) (hz : z ≠ 1) (n : ℕ) :
    |(k * ∑ j ∈ Finset.range n, z ^ j).re| ≤ 2 * ‖k‖ / ‖z - 1‖ := by
  refine (Complex.abs_re_le_norm _).trans ?_
  rw [geom_sum_eq hz, norm_mul, norm_div, mul_div_assoc', mul_comm 2]
  gcongr
  refine (norm_sub_le _ _).trans ?_
  rw [norm_pow, h1, one_pow, norm_one]
  norm_num

/-- The squares of an oscillation are an oscillation of twice the frequency. -/
theorem wave_sq {z : ℂ} (h1 : ‖z‖ = 1) (K : ℝ) (k : ℂ) (j : ℕ) :
    (wave K k z j - K) ^ 2 = wave (‖k‖ ^ 2 / 2) (k ^ 2 / 2) (z ^ 2) j := by
  have e : ∀ u : ℂ, u.re ^ 2 = ‖u‖ ^ 2 / 2 + (u ^ 2 / 2).re := by
    intro u
    rw [← Complex.normSq_eq_norm_sq, Complex.normSq_apply, show (u ^ 2 / 2 : ℂ) = u ^ 2 / ((2 : ℝ) : ℂ) by norm_num,
      Complex.div_ofReal_re, sq u, Complex.mul_re]
    ring
  rw [wave, add_sub_cancel_left, e, norm_mul, norm_pow, h1, one_pow, mul_one, wave]
  congr 2
  rw [← pow_mul, mul_comm 2, pow_mul]
  ring

theorem tone_variance {z : ℂ} (h1 : ‖z‖ = 1) (K : ℝ) (k : ℂ) {n : ℕ} (hn : 1 ≤ n) :
    Spec.variance (tone K k z n) = ‖k‖ ^ 2 / 2 + (k ^ 2 / 2 * ∑ j ∈ Finset.range n, (z ^ 2) ^ j).re / n
      - ((k * ∑ j ∈ Finset.range n, z ^ j).re / n) ^ 2 := by
  have h0 : (n : ℝ) ≠ 0 := by positivity
  have hb : Spec.about 2 K (tone K k z n) = (tone (‖k‖ ^ 2 / 2) (k ^ 2 / 2) (z ^ 2) n).sum := by
    rw [Spec.about, tone, List.map_map, tone]
    congr 1
    exact List.map_congr_left fun j _ => wave_sq h1 K k j
  have hq : ∀ (c m : ℝ) (l : List ℝ), Spec.about 2 (c + m) l = Spec.about 2 c l - 2 * m * (l.sum - l.length * c) + l.length * m ^ 2 := by
    intro c m l
    induction l with
    | nil => simp [Spec.about]
    | cons x l ih =>
      simp only [Spec.about, List.map_cons, List.sum_cons, List.length_cons] at ih ⊢
      rw [ih]; push_cast; ring
  rw [Spec.variance, Spec.central_eq_about, tone_mean K k z hn, hq, hb, tone_sum, tone_sum, tone_length]
  field_simp
  ring

/-! ### Cumulative and window filters -/

section
variable {K : ℝ} {k z : ℂ} {n : ℕ} {ops : List (Op ℝ)}

/-- C169: cumulative filter; what the mean keeps of the oscillation decreases as `1 / n`. -/
theorem C169_cumulative (h1 : ‖z‖ = 1) (hz : z ≠ 1) (hn : 1 ≤ n) (hw : n < 2 ^ w) (ho : sinceClear ops = tone K k z n) :
    ∃ m : ℝ, (Cumulative.Mean.run (finOps ops) : Cumulative.Mean w (E ε)).getMean = X.fin m
      ∧ |m - K| ≤ 2 * ‖k‖ / ‖z - 1‖ / n := by
  refine ⟨_, (C01_mean ops (by rw [ho, tone_length]; exact hw)).1, ?_⟩
  rw [ho, tone_mean K k z hn, add_sub_cancel_left, abs_div, Nat.abs_cast]
  gcongr
  exact abs_re_geom_le h1 hz n

/-- C169: cumulative filter; the variance tends to half the square of the amplitude. -/
theorem C169_cumulative_variance (h1 : ‖z‖ = 1) (hz : z ^ 2 ≠ 1) (hn : 1 ≤ n) (hw : n < 2 ^ w)
    (ho : sinceClear ops = tone K k z n) :
    ∃ v : ℝ, (Cumulative.Variance.run (finOps ops) : Cumulative.Variance w (E ε)).variance = X.fin v
      ∧ |v - ‖k‖ ^ 2 / 2| ≤ ‖k‖ ^ 2 / ‖z ^ 2 - 1‖ / n + (2 * ‖k‖ / ‖z - 1‖ / n) ^ 2 := by
  have hz1 : z ≠ 1 := by rintro rfl; simp at hz
  have hl : (sinceClear ops).length = n := by rw [ho, tone_length]
  refine ⟨_, ((C02_variance ops (by rw [hl]; exact hw)).1 (by rw [hl]; exact hn)).1, ?_⟩
  rw [ho, tone_variance h1 K k hn, add_sub_assoc, add_sub_cancel_left]
  refine (abs_sub _ _).trans (add_le_add ?_ ?_)
  · rw [abs_div, Nat.abs_cast]
    gcongr
    refine (abs_re_geom_le (by rw [norm_pow, h1, one_pow]) hz n).trans (le_of_eq ?_)
    rw [norm_div, norm_pow, show ‖(2 : ℂ)‖ = 2 by norm_num]
    ring
  · rw [abs_pow, abs_div, Nat.abs_cast]
    gcongr
    exact abs_re_geom_le h1 hz1 n

/-- C169: window filter; what the mean keeps of the oscillation. -/
theorem C169_window (hN : 1 ≤ N) (hn : N ≤ n) (ho : sinceClear ops = tone K k z n) :
    ∃ s : Window.Mean N (E ε), Window.Mean.run (finOps ops) = some s
      ∧ s.getMean = X.fin (wave K (k * ((∑ j ∈ Finset.range N, z ^ j) / N)) z (n - N)) := by
  obtain ⟨s, hs, hm⟩ := C18_window_mean (ε := ε) hN ops
  refine ⟨s, hs, ?_⟩
  rw [hm, ho, Spec.lastN, tone_length, tone_drop, show n - (n - N) = N by omega, tone_mean _ _ _ hN, wave]
  congr 2
  rw [← Complex.ofReal_natCast, ← Complex.div_ofReal_re]
  congr 1
  ring

/-- C169: window filter; an oscillation whose period divides the size of the window is removed, and the variance is that
of a whole period. -/
theorem C169_window_period (hN : 1 ≤ N) (hn : N ≤ n) (h1 : ‖z‖ = 1) (hz : z ^ 2 ≠ 1) (hzN : z ^ N = 1)
    (ho : sinceClear ops = tone K k z n) :
    ∃ s : Window.Variance N (E ε), Window.Variance.run (finOps ops) = some s
      ∧ s.getMean = X.fin K ∧ s.variance = X.fin (‖k‖ ^ 2 / 2) := by
  have hz1 : z ≠ 1 := by rintro rfl; simp at hz
  have g1 := geom_zero hz1 hzN
  have g2 := geom_zero (N := N) hz (by rw [← pow_mul, mul_comm, pow_mul, hzN, one_pow])
  obtain ⟨v, hv, hvar, -⟩ := C19_window_variance (ε := ε) hN ops
  obtain ⟨v', t, hv', ht, hm, -⟩ := C18_window_mean_inherited hN (finOps ops : List (Op (E ε)))
  obtain ⟨t', ht', hm'⟩ := C169_window (ε := ε) hN hn ho
  cases hv.symm.trans hv'
  cases ht.symm.trans ht'
  have e : Spec.lastN N (sinceClear ops) = tone K (k * z ^ (n - N)) z N := by
    rw [ho, Spec.lastN, tone_length, tone_drop, show n - (n - N) = N by omega]
  refine ⟨v, hv, ?_, ?_⟩
  · rw [hm, hm', g1]; simp [wave]
  · rw [hvar (by rw [e, tone_length]; exact hN), e, tone_variance h1 _ _ hN, g1, g2, norm_mul, norm_pow, h1]
    simp

/-- C169: window filter; the mean alone, also for the highest frequency `z = -1`. -/
theorem C169_window_null (hN : 1 ≤ N) (hn : N ≤ n) (hz : z ≠ 1) (hzN : z ^ N = 1) (ho : sinceClear ops = tone K k z n) :
    ∃ s : Window.Mean N (E ε), Window.Mean.run (finOps ops) = some s ∧ s.getMean = X.fin K := by
  obtain ⟨s, hs, hm⟩ := C169_window (ε := ε) hN hn ho
  exact ⟨s, hs, by rw [hm, geom_zero hz hzN]; simp [wave]⟩

/-- C169: interim filter; an oscillation whose period divides the size of the window is removed at the ends of the blocks. -/
theorem C169_interim_null (hW : 1 ≤ W) (hw : 2 * W < 2 ^ w) (hz : z ≠ 1) (hzW : z ^ W = 1) (hn : 1 ≤ n) (hd : W ∣ n)
    (ho : sinceClear ops = tone K k z n) :
    Interim.IMean.mean (Interim.Interim.run (finOps ops) : Interim.IMean w W (E ε)) = X.fin K := by
  have hne : tone K k z n ≠ [] := by
    intro e
    have := tone_length K k z n
    rw [e] at this; simp at this; omega
  have hle : W ≤ n := Nat.le_of_dvd hn hd
  rw [(C29_interim_mean hW hw ops).1, ho, (C29_interim_mean_laws hW _ hne).2 (by rw [tone_length]; exact hd), Spec.lastN, tone_length,
    tone_drop, show n - (n - W) = W by omega, tone_mean _ _ _ hW, geom_zero hz hzW]
  simp

end

/-! ### Decaying mean -/

/-- The weighted sum of an oscillation. -/
theorem tone_ewSum (f : ℝ) (k z : ℂ) (hz : z ≠ ((1 - f : ℝ) : ℂ)) (n : ℕ) :
    Spec.ewSum f (tone 0 k z n) = (k * (f * (z ^ n - ((1 - f : ℝ) : ℂ) ^ n) / (z - ((1 - f : ℝ) : ℂ)))).re := by
  have hd : z - ((1 - f : ℝ) : ℂ) ≠ 0 := sub_ne_zero.2 hz
  induction n with
  | zero => simp [tone, Spec.ewSum]
  | succ n ih =>
    rw [tone_succ, Spec.ewSum_snoc, ih, wave, zero_add, ← Complex.re_ofReal_mul, ← Complex.re_ofReal_mul, ← Complex.add_re]
    congr 1
    field_simp
    ring

theorem tone_split (K : ℝ) (k z : ℂ) (f : ℝ) (n : ℕ) :
    Spec.ewSum f (tone K k z n) = K * (1 - (1 - f) ^ n) + Spec.ewSum f (tone 0 k z n) := by
  induction n with
  | zero => simp [tone, Spec.ewSum]
  | succ n ih =>
    rw [tone_succ, tone_succ, Spec.ewSum_snoc, Spec.ewSum_snoc, ih, wave, wave]
    ring

/-- The response of the decaying mean at the frequency `z`. -/
noncomputable def decayResponse (f : ℝ) (z : ℂ) : ℂ := f * z / (z - ((1 - f : ℝ) : ℂ))

theorem ne_keep {f : ℝ} (h0 : 0 < f) (h1 : f ≤ 1) {z : ℂ} (hz : ‖z‖ = 1) : z ≠ ((1 - f : ℝ) : ℂ) := by
  rintro rfl
  rw [Complex.norm_real, Real.norm_eq_abs, abs_of_nonneg (by linarith)] at hz
  linarith

/-- C169: decaying mean; the value is the oscillation with amplitude and phase changed by `decayResponse`, up to an error that
decreases as `(1 - f)^n`. -/
theorem C169_decay {f : ℝ} (h0 : 0 < f) (h1 : f ≤ 1) {K : ℝ} {k z : ℂ} (hz : ‖z‖ = 1) {n : ℕ} {ops : List (Op ℝ)}
    (ho : sinceClear ops = tone K k z (n + 1)) :
    ∃ m : ℝ, (Decay.Mean.run (X.fin f) (finOps ops) : Decay.Mean (E ε)).mean = X.fin m
      ∧ |m - wave K (k * decayResponse f z) z n| ≤ 2 * ‖k‖ * ((1 - f) ^ (n + 1) / (1 - (1 - f) ^ (n + 1))) := by
  have hp := Spec.norm_pos h0 h1 (n := n + 1) (by omega)
  have hq0 : 0 ≤ 1 - f := by linarith
  have hqn := pow_nonneg hq0 (n + 1)
  have hne := ne_keep h0 h1 hz
  have hd : z - ((1 - f : ℝ) : ℂ) ≠ 0 := sub_ne_zero.2 hne
  have hdn : f ≤ ‖z - ((1 - f : ℝ) : ℂ)‖ := by
    have := norm_sub_norm_le z ((1 - f : ℝ) : ℂ)
    rw [hz, Complex.norm_real, Real.norm_eq_abs, abs_of_nonneg hq0] at this
    linarith
  have hdp : 0 < ‖z - ((1 - f : ℝ) : ℂ)‖ := by linarith
  refine ⟨_, C25_decay_mean h0 h1 ops, ?_⟩
  rw [ho, Spec.ewMean, tone_length, tone_split, tone_ewSum f k z hne, wave]
  set q := (1 - f) ^ (n + 1) with hq
  have e : (K * (1 - q) + (k * (f * (z ^ (n + 1) - ((1 - f : ℝ) : ℂ) ^ (n + 1)) / (z - ((1 - f : ℝ) : ℂ)))).re) / (1 - q)
      - (K + (k * decayResponse f z * z ^ n).re)
      = (k * f * (z ^ (n + 1) - 1) / (z - ((1 - f : ℝ) : ℂ))).re * (q / (1 - q)) := by
    rw [← Complex.ofReal_pow, ← hq, div_sub' hp.ne', mul_div_assoc' _ q (1 - q)]
    congr 1
    rw [mul_comm _ q, ← Complex.re_ofReal_mul, mul_add, ← Complex.re_ofReal_mul, mul_comm (1 - q) K, add_sub_add_left_eq_sub, ← Complex.sub_re]
    congr 1
    rw [decayResponse]
    field_simp
    push_cast
    ring
  rw [e, abs_mul, abs_of_nonneg (div_nonneg hqn hp.le)]
  refine mul_le_mul_of_nonneg_right ((Complex.abs_re_le_norm _).trans ?_) (div_nonneg hqn hp.le)
  rw [norm_div, norm_mul, norm_mul, Complex.norm_real, Real.norm_eq_abs, abs_of_pos h0, div_le_iff₀ hdp]
  have h2 : ‖z ^ (n + 1) - 1‖ ≤ 2 := by
    refine (norm_sub_le _ _).trans ?_
    rw [norm_pow, hz, one_pow, norm_one]; norm_num
  have hk := norm_nonneg k
  calc ‖k‖ * f * ‖z ^ (n + 1) - 1‖ ≤ ‖k‖ * ‖z - ((1 - f : ℝ) : ℂ)‖ * 2 := by gcongr
    _ = _ := by ring

/-- C169: decaying mean; the amplitude is multiplied by `f / sqrt (1 - 2 (1 - f) cos θ + (1 - f)²)`, which is at most 1. -/
theorem C169_decay_gain {f : ℝ} (h0 : 0 < f) (h1 : f ≤ 1) (θ : ℝ) :
    ‖decayResponse f (Complex.exp (θ * Complex.I))‖ ^ 2 = f ^ 2 / (1 - 2 * (1 - f) * Real.cos θ + (1 - f) ^ 2)
      ∧ ‖decayResponse f (Complex.exp (θ * Complex.I))‖ ≤ 1 := by
  have hz : ‖Complex.exp (θ * Complex.I)‖ = 1 := Complex.norm_exp_ofReal_mul_I θ
  have hq0 : 0 ≤ 1 - f := by linarith
  have hd : ‖Complex.exp (θ * Complex.I) - ((1 - f : ℝ) : ℂ)‖ ^ 2 = 1 - 2 * (1 - f) * Real.cos θ + (1 - f) ^ 2 := by
    rw [← Complex.normSq_eq_norm_sq, Complex.normSq_apply, Complex.sub_re, Complex.sub_im, Complex.ofReal_re, Complex.ofReal_im,
      Complex.exp_ofReal_mul_I_re, Complex.exp_ofReal_mul_I_im]
    have := Real.sin_sq_add_cos_sq θ
    linear_combination this
  have hdn : f ≤ ‖Complex.exp (θ * Complex.I) - ((1 - f : ℝ) : ℂ)‖ := by
    have := norm_sub_norm_le (Complex.exp (θ * Complex.I)) ((1 - f : ℝ) : ℂ)
    rw [hz, Complex.norm_real, Real.norm_eq_abs, abs_of_nonneg hq0] at this
    linarith
  have hn : ‖decayResponse f (Complex.exp (θ * Complex.I))‖ = f / ‖Complex.exp (θ * Complex.I) - ((1 - f : ℝ) : ℂ)‖ := by
    rw [decayResponse, norm_div, norm_mul, hz, mul_one, Complex.norm_real, Real.norm_eq_abs, abs_of_pos h0]
  exact ⟨by rw [hn, div_pow, hd], by rw [hn]; exact (div_le_one (by linarith)).2 hdn⟩

/-! ### Impulse filters -/

/-- The transfer function of the coefficients: `Σ c_i z^(-i)`. -/
noncomputable def transfer (cs : List ℝ) (z : ℂ) : ℂ := ((List.range cs.length).map fun i : ℕ => (cs.getD i 0 : ℂ) * z⁻¹ ^ i).sum

theorem fir_wave (cs : List ℝ) (k : ℂ) {z : ℂ} (hz : z ≠ 0) {n : ℕ} (h : cs.length ≤ n + 1) :
    Spec.fir cs ((List.range (n + 1)).map (wave 0 k z)) = wave 0 (k * transfer cs z) z n := by
  have e : ∀ l : List ℕ, (∀ i ∈ l, i < cs.length) →
      (l.map fun i : ℕ => cs.getD i 0 * ((List.range (n + 1)).map (wave 0 k z)).reverse.getD i 0).sum
        = (k * (l.map fun i : ℕ => (cs.getD i 0 : ℂ) * z⁻¹ ^ i).sum * z ^ n).re := by
    intro l
    induction l with
    | nil => intro _; simp
    | cons i l ih =>
      intro hl
      have hi := hl i List.mem_cons_self
      rw [List.map_cons, List.map_cons, List.sum_cons, List.sum_cons, ih fun j hj => hl j (List.mem_cons_of_mem _ hj),
        getD_reverse_range, if_pos (by omega), wave, zero_add, ← Complex.re_ofReal_mul, ← Complex.add_re]
      congr 1
      rw [Nat.add_sub_cancel, pow_sub₀ z hz (by omega), inv_pow]
      ring
  rw [wave, zero_add, transfer, Spec.fir]
  exact e _ fun i hi => List.mem_range.1 hi

/-- C169: FIR filter; after `P` values the output is the oscillation with amplitude and phase changed by the transfer
function. -/
theorem C169_fir {cs : List ℝ} (hc : cs ≠ []) (k : ℂ) {z : ℂ} (hz : ‖z‖ = 1) {n : ℕ} (hn : cs.length ≤ n + 1) :
    ∃ s : Impulse.Finite (E ε), Impulse.Finite.run (cs.map X.fin) (finOps ((tone 0 k z (n + 1)).map .push)) = some s
      ∧ s.value = X.fin (wave 0 (k * transfer cs z) z n) := by
  have hne : tone 0 k z (n + 1) ≠ [] := by simp [tone]
  have hz0 : z ≠ 0 := by rintro rfl; simp at hz
  obtain ⟨s, hs, hv⟩ := fir_pushes (ε := ε) hc hne
  exact ⟨s, hs, by rw [hv, tone, fir_wave cs k hz0 hn]⟩

theorem transfer_norm_le (cs : List ℝ) {z : ℂ} (hz : ‖z‖ = 1) : ‖transfer cs z‖ ≤ (cs.map abs).sum := by
  have e : (cs.map abs).sum = ((List.range cs.length).map fun i : ℕ => |cs.getD i 0|).sum := by
    congr 1
    apply List.ext_getElem
    · simp
    · intro i h1 h2
      simp at h1
      simp [h1]
  rw [e, transfer]
  generalize List.range cs.length = l
  induction l with
  | nil => simp
  | cons i l ih =>
    simp only [List.map_cons, List.sum_cons]
    refine (norm_add_le _ _).trans (add_le_add (le_of_eq ?_) ih)
    rw [norm_mul, norm_pow, norm_inv, hz, inv_one, one_pow, mul_one, Complex.norm_real, Real.norm_eq_abs]

/-- C169: IIR filter; if `Σ |b| < |scale|` the output approaches the oscillation with amplitude and phase changed by the quotient
of the transfer functions. -/
theorem C169_iir {as bs : List ℝ} (ha : as ≠ []) (hb : bs ≠ []) {c : ℝ} (hc : (bs.map abs).sum < |c|) (k : ℂ) {z : ℂ} (hz : ‖z‖ = 1) :
    (c : ℂ) + z⁻¹ * transfer bs z ≠ 0
    ∧ ∃ y : ℕ → ℝ, (∀ n, ∃ s : Impulse.Infinite (E ε),
        Impulse.Infinite.run (as.map X.fin) (bs.map X.fin) (X.fin c) (finOps ((tone 0 k z (n + 1)).map .push)) = some s
          ∧ s.value = X.fin (y n))
      ∧ Filter.Tendsto (fun n => y n - wave 0 (k * (transfer as z / (c + z⁻¹ * transfer bs z))) z n) Filter.atTop (nhds 0) := by
  have hs : ∀ l : List ℝ, 0 ≤ (l.map abs).sum := fun l =>
    List.sum_nonneg (by intro x hx; obtain ⟨y, -, rfl⟩ := List.mem_map.1 hx; exact abs_nonneg y)
  have hcp : 0 < |c| := lt_of_le_of_lt (hs bs) hc
  have hc0 : c ≠ 0 := abs_pos.1 hcp
  have hz0 : z ≠ 0 := by rintro rfl; simp at hz
  have hd : (c : ℂ) + z⁻¹ * transfer bs z ≠ 0 := by
    intro h
    have h1 : ‖(c : ℂ)‖ = ‖transfer bs z‖ := by
      rw [eq_neg_of_add_eq_zero_left h, norm_neg, norm_mul, norm_inv, hz, inv_one, one_mul]
    rw [Complex.norm_real, Real.norm_eq_abs] at h1
    linarith [transfer_norm_le bs hz]
  refine ⟨hd, iirOut as bs c (wave 0 k z), fun n => iir_value ha hb hc0 _ n, ?_⟩
  set u := wave 0 k z with hu
  set y := iirOut as bs c u with hy
  set H := transfer as z / (c + z⁻¹ * transfer bs z) with hH
  set Y := wave 0 (k * H) z with hY
  have hrec : ∀ n, c * y n = Spec.fir as ((List.range (n + 1)).map u) - Spec.fir bs ((List.range n).map y) := by
    intro n
    rw [hy, iirOut, ← iirList_eq, mul_div_cancel₀ _ hc0]
  have hwave : ∀ (k : ℂ) n, |wave 0 k z n| ≤ ‖k‖ := by
    intro k n
    rw [wave, zero_add]
    refine (Complex.abs_re_le_norm _).trans (le_of_eq ?_)
    rw [norm_mul, norm_pow, hz, one_pow, mul_one]
  have hyB : ∀ n, |y n| ≤ ‖k‖ * (as.map abs).sum / (|c| - (bs.map abs).sum) := by
    intro n
    refine iir_abs_le hc (norm_nonneg k) (iirList_isIIR as bs hc0 u (n + 1)) ?_ _ ?_
    · intro x hx
      obtain ⟨i, -, rfl⟩ := List.mem_map.1 hx
      exact hwave k i
    · rw [iirList_eq]
      exact List.mem_map.2 ⟨n, by simp, rfl⟩
  -- the steady state solves the difference equation
  have hsteady : ∀ n, as.length ≤ n + 1 → bs.length ≤ n →
      c * Y n = Spec.fir as ((List.range (n + 1)).map u) - Spec.fir bs ((List.range n).map Y) := by
    intro n h1 h2
    rw [hu, fir_wave as k hz0 h1]
    obtain ⟨m, rfl⟩ : ∃ m, n = m + 1 := by
      refine ⟨n - 1, ?_⟩
      have := List.length_pos_iff.2 hb
      omega
    rw [hY, fir_wave bs (k * H) hz0 (by omega), wave, wave, wave, zero_add, zero_add, zero_add, ← Complex.re_ofReal_mul,
      ← Complex.sub_re]
    congr 1
    have hHe : H * (c + z⁻¹ * transfer bs z) = transfer as z := div_mul_cancel₀ _ hd
    rw [← hHe, pow_succ]
    field_simp
    ring
  refine tendsto_zero_of_contract (ρ := (bs.map abs).sum / |c|)
    (M := ‖k‖ * (as.map abs).sum / (|c| - (bs.map abs).sum) + ‖k * H‖)
    (div_nonneg (hs bs) hcp.le) (by rw [div_lt_one hcp]; exact hc)
    ⟨0, fun n _ => (abs_sub _ _).trans (by have := hyB n; have := hwave (k * H) n; linarith)⟩ ?_
  intro T δ hδ ⟨N, hN⟩
  have hT0 : 0 ≤ T := (abs_nonneg _).trans (hN N le_rfl)
  refine ⟨N + as.length + bs.length, fun n hn => ?_⟩
  have hlin : Spec.fir bs ((List.range n).map y) - Spec.fir bs ((List.range n).map Y) = Spec.fir bs ((List.range n).map fun j => y j - Y j) := by
    have hl := Spec.fir_linear bs 1 (-1) (xs := (List.range n).map y) (xs' := (List.range n).map Y) (by simp)
    rw [List.zipWith_map_left, List.zipWith_map_right, List.zipWith_self] at hl
    have e : (fun a => 1 * y a + -1 * Y a) = fun k => y k - Y k := by funext k; ring
    rw [e] at hl
    rw [hl]; ring
  have h2 : |Spec.fir bs ((List.range n).map fun j => y j - Y j)| ≤ T * (bs.map abs).sum := by
    refine Spec.fir_abs_le hT0 ?_
    intro x hx
    rw [Spec.lastN, List.mem_drop_iff_getElem] at hx
    obtain ⟨i, hi, rfl⟩ := hx
    simp only [List.getElem_map, List.getElem_range]
    apply hN
    simp only [List.length_map, List.length_range]
    omega
  have h3 : c * (y n - Y n) = - Spec.fir bs ((List.range n).map fun j => y j - Y j) := by
    rw [← hlin, mul_sub, hrec, hsteady n (by omega) (by omega)]; ring
  have h4 : |c| * |y n - Y n| ≤ |c| * ((bs.map abs).sum / |c| * T + δ) := by
    rw [← abs_mul, h3, abs_neg]
    have e : |c| * ((bs.map abs).sum / |c| * T + δ) = δ * |c| + T * (bs.map abs).sum := by field_simp; ring
    rw [e]
    have := mul_pos hδ hcp
    linarith
  exact le_of_mul_le_mul_left h4 hcp

/-! ### Non-vacuity -/

/-- The period 4: `z = i`, `k = 3`: 5 + 3, 5, 5 - 3, 5, 5 + 3. The window of 4 values has mean 5 and variance 9/2. -/
example : ∃ s : Window.Variance 4 (E ε), Window.Variance.run (finOps [.push 8, .push 5, .push 2, .push 5, .push 8]) = some s
    ∧ s.getMean = X.fin 5 ∧ s.variance = X.fin (9 / 2) := by
  have ho : sinceClear ([.push 8, .push 5, .push 2, .push 5, .push 8] : List (Op ℝ)) = tone 5 3 Complex.I 5 := by
    simp [sinceClear, tone, wave, List.range_succ, pow_succ]
    norm_num
  obtain ⟨s, hs, h1, h2⟩ := C169_window_period (ε := ε) (N := 4) (by norm_num) (by norm_num) Complex.norm_I
    (by rw [Complex.I_sq]; norm_num) Complex.I_pow_four ho
  refine ⟨s, hs, h1, ?_⟩
  rw [h2]; norm_num

/-- The highest frequency: the coefficients 1/2, 1/2 remove the values 1, -1, 1. -/
example : ∃ s : Impulse.Finite (E ε), Impulse.Finite.run ([1 / 2, 1 / 2].map X.fin) (finOps ([1, -1, 1].map .push)) = some s
    ∧ s.value = X.fin 0 := by
  obtain ⟨s, hs, hv⟩ := C169_fir (ε := ε) (cs := [1 / 2, 1 / 2]) (by simp) 1 (z := -1) (by simp) (n := 2) (by simp)
  have ht : tone 0 1 (-1) (2 + 1) = [1, -1, 1] := by simp [tone, wave, List.range_succ]
  rw [ht] at hs
  refine ⟨s, hs, ?_⟩
  rw [hv, show transfer [1 / 2, 1 / 2] (-1) = 0 by simp [transfer, List.range_succ]]
  simp [wave]

/-- With f = 1/2 the highest frequency is reduced to a third. -/
example : decayResponse (1 / 2) (-1) = 1 / 3 := by
  rw [decayResponse]; push_cast; norm_num

end Verif.Props
