import Verif.Proofs.Window
/-
C18 - C22 and the window part of C13: the window filters.
-/
namespace Verif.Props
open Scalar Exact Verif.Window

variable {N : Nat} {ε : ℝ}

/-- The history used in the examples. -/
def demoW : List (Op ℝ) := [.push 7, .clear, .push 100, .push 1, .push 2, .push 6]

theorem lastN_demoW : Spec.lastN 3 (sinceClear demoW) = [1, 2, 6] := rfl

/-! ### C18 -/

/-- C18, any arithmetic: no undefined behaviour, and `size`, `full`, `empty`, `capacity` are as documented. -/
theorem C18_window_bookkeeping {α : Type} [Scalar α] (hN : 1 ≤ N) (ops : List (Op α)) :
    ∃ s : Mean N α, Mean.run ops = some s
      ∧ s.size = min N (sinceClear ops).length
      ∧ s.capacity = N
      ∧ (s.full = true ↔ N ≤ (sinceClear ops).length)
      ∧ (s.empty = true ↔ sinceClear ops = []) := by
  obtain ⟨s, hs, hi⟩ := Mean.run_items hN ops
  have hl : s.window.items.length = min N (sinceClear ops).length := by
    rw [hi, Spec.length_lastN]
  refine ⟨s, hs, hl, rfl, ?_, ?_⟩
  · simp only [Mean.full, Ring.full, beq_iff_eq, hl]; omega
  · simp only [Mean.empty, Ring.empty, beq_iff_eq, hl]
    rw [← List.length_eq_zero_iff]; omega

/-- C18, exact arithmetic: `mean()` is the mean of the last `min(N, n)` values. -/
theorem C18_window_mean (hN : 1 ≤ N) (ops : List (Op ℝ)) :
    ∃ s : Mean N (E ε), Mean.run (finOps ops) = some s
      ∧ s.getMean = X.fin (Spec.mean (Spec.lastN N (sinceClear ops))) :=
  ⟨_, Mean.run_fin hN ops, rfl⟩

example : ∃ s : Mean 3 (E ε), Mean.run (finOps demoW) = some s ∧ s.getMean = X.fin 3 := by
  obtain ⟨s, h, h'⟩ := C18_window_mean (N := 3) (ε := ε) (by norm_num) demoW
  refine ⟨s, h, h'.trans ?_⟩
  rw [lastN_demoW]; simp [Spec.mean]; norm_num

/-- C18 also holds for the variance filter, in any arithmetic: it contains the mean filter of the same
history. -/
theorem C18_window_mean_inherited {α : Type} [Scalar α] (hN : 1 ≤ N) (ops : List (Op α)) :
    ∃ (v : Variance N α) (m : Mean N α), Variance.run ops = some v ∧ Mean.run ops = some m
      ∧ v.getMean = m.getMean ∧ v.size = m.size ∧ v.full = m.full ∧ v.empty = m.empty
      ∧ v.capacity = m.capacity := by
  obtain ⟨v, hv, _⟩ := Variance.run_items hN ops
  have h := Variance.run_super hN ops
  rw [hv] at h
  exact ⟨v, v.super, hv, h.symm, rfl, rfl, rfl, rfl, rfl⟩

/-! ### C19 -/

/-- C19, exact arithmetic. -/
theorem C19_window_variance (hN : 1 ≤ N) (ops : List (Op ℝ)) :
    let l := Spec.lastN N (sinceClear ops)
    ∃ s : Variance N (E ε), Variance.run (finOps ops) = some s
      ∧ (1 ≤ l.length → s.variance = X.fin (Spec.variance l))
      ∧ (l.length = 0 → s.variance = X.fin 0)
      ∧ (2 ≤ l.length → s.unbiasedVariance = X.fin (Spec.sampleVariance l))
      ∧ (l.length ≤ 1 → s.unbiasedVariance = X.fin 0) := by
  intro l
  refine ⟨_, Variance.run_fin hN ops, ?_, ?_, ?_, ?_⟩
  · intro h1
    have hp : (0 : ℝ) < l.length := by exact_mod_cast h1
    have hsz : (Variance.of l : Variance N (E ε)).size = l.length := by
      simp [Variance.size, Variance.of, Mean.size, Mean.of, Ring.size]
    have hsum : (Variance.of l : Variance N (E ε)).sumVariance = X.fin (Spec.central 2 l) := rfl
    simp only [Variance.variance]
    have hgt : l.length > 0 := h1
    rw [hsz, if_pos hgt, hsum, Exact.ofNat_eq, Exact.ofNat_eq, div_fin _ hp.ne', max_fin, Nat.cast_zero,
      max_eq_right (div_nonneg (Spec.central_two_nonneg l) hp.le)]
    rfl
  · intro h0
    have hsz : (Variance.of l : Variance N (E ε)).size = l.length := by
      simp [Variance.size, Variance.of, Mean.size, Mean.of, Ring.size]
    simp only [Variance.variance]
    rw [hsz, if_neg (by omega)]; simp
  · intro h2
    have hp : (0 : ℝ) < (l.length : ℝ) - 1 := by
      have : (2 : ℝ) ≤ l.length := by exact_mod_cast h2
      linarith
    have hsz : (Variance.of l : Variance N (E ε)).size = l.length := by
      simp [Variance.size, Variance.of, Mean.size, Mean.of, Ring.size]
    have hsum : (Variance.of l : Variance N (E ε)).sumVariance = X.fin (Spec.central 2 l) := rfl
    simp only [Variance.unbiasedVariance]
    rw [hsz, if_pos (by omega), hsum, Exact.ofNat_eq, Exact.ofNat_eq, Nat.cast_sub (by omega),
      Nat.cast_one, div_fin _ hp.ne', max_fin, Nat.cast_zero,
      max_eq_right (div_nonneg (Spec.central_two_nonneg l) hp.le)]
    rfl
  · intro h1
    have hsz : (Variance.of l : Variance N (E ε)).size = l.length := by
      simp [Variance.size, Variance.of, Mean.size, Mean.of, Ring.size]
    simp only [Variance.unbiasedVariance]
    rw [hsz, if_neg (by omega)]; simp

example : ∃ s : Variance 3 (E ε), Variance.run (finOps demoW) = some s
    ∧ s.unbiasedVariance = X.fin 7 := by
  obtain ⟨s, h, _, _, h', _⟩ := C19_window_variance (N := 3) (ε := ε) (by norm_num) demoW
  refine ⟨s, h, (h' (by rw [lastN_demoW]; simp)).trans ?_⟩
  rw [lastN_demoW]; simp [Spec.sampleVariance, Spec.central, Spec.mean]; norm_num

/-- A value that is a number and not negative. -/
def NumNonneg {F : Fmt} : X F → Prop
  | .fin r => 0 ≤ r
  | .pinf => True
  | .ninf => False
  | .nan => False

/-- C19, any format with any rounding of any (even non-finite) input: the results are never NaN and
never negative.  The only assumption is that the format can represent 0. -/
theorem C19_window_variance_nonneg {F : Fmt} (hF : F.rnd 0 = 0 ∧ F.fits 0) (hN : 1 ≤ N)
    (ops : List (Op (X F))) :
    ∃ s : Variance N (X F), Variance.run ops = some s
      ∧ NumNonneg s.variance ∧ NumNonneg s.unbiasedVariance := by
  obtain ⟨s, hs, _⟩ := Variance.run_items hN ops
  have h0 : (ofNat 0 : X F) = X.fin 0 := by
    rw [X.ofNat_eq, X.round, Nat.cast_zero, hF.1, if_pos hF.2]
  have hmax : ∀ v : X F, NumNonneg (Scalar.max (ofNat 0) v) := by
    intro v
    rw [h0]
    unfold Scalar.max
    cases v with
    | fin r =>
      rw [X.lt_fin]
      by_cases hr : 0 < r
      · rw [decide_eq_true hr]; exact hr.le
      · rw [decide_eq_false hr]; exact le_refl (0 : ℝ)
    | pinf => exact trivial
    | ninf => exact le_refl (0 : ℝ)
    | nan => exact le_refl (0 : ℝ)
  have h00 : NumNonneg (ofNat 0 : X F) := by rw [h0]; exact le_refl (0 : ℝ)
  refine ⟨s, hs, ?_, ?_⟩
  · simp only [Variance.variance]
    split_ifs
    · exact hmax _
    · exact h00
  · simp only [Variance.unbiasedVariance]
    split_ifs
    · exact hmax _
    · exact h00

example : ∃ s : Variance 2 (E ε), Variance.run [.push X.nan, .push X.pinf, .push (X.fin 1)] = some s
    ∧ NumNonneg s.variance ∧ NumNonneg s.unbiasedVariance :=
  C19_window_variance_nonneg ⟨rfl, trivial⟩ (by norm_num) _

/-! ### C20 -/

/-- C20: window covariance. -/
theorem C20_window_covariance (hN : 1 ≤ N) (ops : List (Op (ℝ × ℝ))) :
    let l := Spec.lastN N (sinceClear ops)
    ∃ s : Comoment N (E ε), Comoment.run (finOps2 ops) = some s
      ∧ s.size = min N (sinceClear ops).length
      ∧ (1 ≤ l.length → s.variance = X.fin (Spec.covariance l))
      ∧ (l.length = 0 → s.variance = X.fin 0)
      ∧ (2 ≤ l.length → s.unbiasedVariance = X.fin (Spec.cosum l / (l.length - 1)))
      ∧ (l.length ≤ 1 → s.unbiasedVariance = X.fin 0) := by
  intro l
  have hsz : (Comoment.of l : Comoment N (E ε)).size = l.length := by
    simp [Comoment.size, Comoment.of, Ring.size]
  have hcs : l ≠ [] → (Comoment.of l : Comoment N (E ε)).cosum = X.fin (Spec.cosum l) := by
    intro hne
    rw [Comoment.cosum, hsz, Spec.cosum_eq]
    simp only [Comoment.of, Exact.ofNat_eq, mul_fin]
    rw [div_fin _ (Spec.length_ne_zero hne), sub_fin]
  refine ⟨_, Comoment.run_fin hN ops, ?_, ?_, ?_, ?_, ?_⟩
  · rw [← Spec.length_lastN]; exact hsz
  · intro h1
    have hne : l ≠ [] := List.length_pos_iff.1 h1
    show (Comoment.of l : Comoment N (E ε)).variance = _
    rw [Comoment.variance, if_pos (by rw [hsz]; exact h1), hcs hne, hsz, Exact.ofNat_eq,
      div_fin _ (Spec.length_ne_zero hne)]
    rfl
  · intro h0
    show (Comoment.of l : Comoment N (E ε)).variance = _
    rw [Comoment.variance, if_neg (by rw [hsz]; omega)]; simp
  · intro h2
    have hne : l ≠ [] := List.length_pos_iff.1 (by omega)
    have hp : (0 : ℝ) < (l.length : ℝ) - 1 := by
      have : (2 : ℝ) ≤ l.length := by exact_mod_cast h2
      linarith
    show (Comoment.of l : Comoment N (E ε)).unbiasedVariance = _
    rw [Comoment.unbiasedVariance, if_pos (by rw [hsz]; omega), hcs hne, hsz, Exact.ofNat_eq,
      Nat.cast_sub (by omega), Nat.cast_one, div_fin _ hp.ne']
  · intro h1
    show (Comoment.of l : Comoment N (E ε)).unbiasedVariance = _
    rw [Comoment.unbiasedVariance, if_neg (by rw [hsz]; omega)]; simp

example : ∃ s : Comoment 2 (E ε),
    Comoment.run (finOps2 [.push (9, 9), .push (0, 1), .push (2, -3)]) = some s
    ∧ s.variance = X.fin (-2) := by
  obtain ⟨s, h, _, h', _⟩ := C20_window_covariance (N := 2) (ε := ε) (by norm_num)
    [.push (9, 9), .push (0, 1), .push (2, -3)]
  have e : Spec.lastN 2 (sinceClear [.push (9, 9), .push (0, 1), .push (2, -3)])
      = ([(0, 1), (2, -3)] : List (ℝ × ℝ)) := rfl
  refine ⟨s, h, (h' (by rw [e]; simp)).trans ?_⟩
  rw [e]; simp [Spec.covariance, Spec.cosum, Spec.mean]; norm_num

/-! ### C21 -/

/-- The exact results of `slope()` and `at()` for a non-empty window. -/
theorem window_regression_result (hN : 1 ≤ N) (ops : List (Op (ℝ × ℝ)))
    (hne : sinceClear ops ≠ []) :
    let l := Spec.lastN N (sinceClear ops)
    let b := if Spec.central 2 (Spec.xsOf l) = 0 then 0
      else Spec.cosum l / Spec.central 2 (Spec.xsOf l)
    ∃ s : Regression N (E ε), Regression.run (finOps2 ops) = some s
      ∧ s.size = min N (sinceClear ops).length
      ∧ s.slope = X.fin b
      ∧ ∀ x : ℝ, s.at' (X.fin x)
          = X.fin (Spec.mean (Spec.ysOf l) - b * (Spec.mean (Spec.xsOf l) - x)) := by
  intro l b
  have h1 : 1 ≤ l.length := by
    have := List.length_pos_iff.2 hne
    rw [Spec.length_lastN]; omega
  have hlne : l ≠ [] := List.length_pos_iff.1 h1
  have hp := Spec.length_pos hlne
  have hcsz : (Comoment.of l : Comoment N (E ε)).size = l.length := by
    simp [Comoment.size, Comoment.of, Ring.size]
  have hco : (Comoment.of l : Comoment N (E ε)).variance = X.fin (Spec.covariance l) := by
    rw [Comoment.variance, if_pos (by rw [hcsz]; exact h1), Comoment.cosum, hcsz]
    simp only [Comoment.of, Exact.ofNat_eq, mul_fin]
    rw [div_fin _ hp.ne', sub_fin, div_fin _ hp.ne', ← Spec.cosum_eq]
    rfl
  have hx : (Variance.of (Spec.xsOf l) : Variance N (E ε)).variance
      = X.fin (Spec.central 2 (Spec.xsOf l) / l.length) := by
    have hsz : (Variance.of (Spec.xsOf l) : Variance N (E ε)).size = l.length := by
      simp [Variance.size, Variance.of, Mean.size, Mean.of, Ring.size]
    have hsum : (Variance.of (Spec.xsOf l) : Variance N (E ε)).sumVariance
        = X.fin (Spec.central 2 (Spec.xsOf l)) := rfl
    simp only [Variance.variance]
    have hgt : l.length > 0 := h1
    rw [hsz, if_pos hgt, hsum, Exact.ofNat_eq, Exact.ofNat_eq, div_fin _ hp.ne', max_fin, Nat.cast_zero,
      max_eq_right (div_nonneg (Spec.central_two_nonneg _) hp.le)]
  have hslope : (Regression.of l : Regression N (E ε)).slope = X.fin b := by
    simp only [Regression.slope]
    have e1 : (Regression.of l : Regression N (E ε)).xMoment.variance = _ := hx
    have e2 : (Regression.of l : Regression N (E ε)).covariance.variance = _ := hco
    rw [e1, e2, Exact.ofNat_eq, Nat.cast_zero, beq_fin]
    by_cases hc : Spec.central 2 (Spec.xsOf l) = 0
    · rw [if_pos (decide_eq_true (by rw [hc, zero_div]))]
      simp only [b, if_pos hc]
    · have hc' : ¬ Spec.central 2 (Spec.xsOf l) / (l.length : ℝ) = 0 := by
        rw [div_eq_zero_iff, or_iff_left hp.ne']; exact hc
      rw [decide_eq_false hc', div_fin _ hc']
      simp only [b, if_neg hc, Spec.covariance, Bool.false_eq_true, if_false, X.fin_inj]
      rw [div_div_div_cancel_right₀ hp.ne']
  refine ⟨_, Regression.run_fin hN ops, ?_, hslope, ?_⟩
  · rw [← Spec.length_lastN]; exact hcsz
  · intro x
    show (Regression.of l : Regression N (E ε)).at' (X.fin x) = _
    simp only [Regression.at', hslope]
    have e3 : (Regression.of l : Regression N (E ε)).covariance.size = l.length := hcsz
    have e4 : (Regression.of l : Regression N (E ε)).covariance.sumY = X.fin (Spec.ysOf l).sum := rfl
    have e5 : (Regression.of l : Regression N (E ε)).xMoment.getMean
        = X.fin (Spec.mean (Spec.xsOf l)) := rfl
    have e6 : Spec.mean (Spec.ysOf l) = (Spec.ysOf l).sum / (l.length : ℝ) := by
      rw [Spec.mean, Spec.length_ysOf]
    rw [e3, e4, e5, Exact.ofNat_eq, div_fin _ hp.ne', sub_fin, mul_fin, sub_fin, e6]

/-- C21: `size()` of the window regression and covariance, in any arithmetic. -/
theorem C21_size {α : Type} [Scalar α] (hN : 1 ≤ N) (ops : List (Op (α × α))) :
    (∃ s : Regression N α, Regression.run ops = some s ∧ s.size = min N (sinceClear ops).length)
    ∧ ∃ s : Comoment N α, Comoment.run ops = some s ∧ s.size = min N (sinceClear ops).length := by
  constructor
  · obtain ⟨s, h1, h2⟩ := Regression.run_items hN ops
    exact ⟨s, h1, by simp only [Regression.size, Comoment.size, Ring.size, h2, Spec.length_lastN]⟩
  · obtain ⟨s, h1, h2⟩ := Comoment.run_items hN ops
    exact ⟨s, h1, by simp only [Comoment.size, Ring.size, h2, Spec.length_lastN]⟩

example : ∃ s : Regression 2 (E 0),
    Regression.run [.push (X.fin 1, X.fin 2), .clear, .push (X.fin 3, X.fin 4), .push (X.fin 5, X.fin 7), .push (X.fin 6, X.fin 7)] = some s
    ∧ s.size = 2 :=
  (C21_size (by norm_num) _).1

/-- C21: least squares over the last `min(N, n)` pairs. -/
theorem C21_window_least_squares (hN : 1 ≤ N) (ops : List (Op (ℝ × ℝ)))
    (hne : sinceClear ops ≠ []) :
    let l := Spec.lastN N (sinceClear ops)
    ∃ s : Regression N (E ε), Regression.run (finOps2 ops) = some s ∧ ∃ a b : ℝ,
      s.slope = X.fin b
      ∧ (∀ x : ℝ, s.at' (X.fin x) = X.fin (a + b * x))
      ∧ (∀ a' b' : ℝ, Spec.sse a b l ≤ Spec.sse a' b' l)
      ∧ ((∃ p ∈ l, ∃ q ∈ l, p.1 ≠ q.1) →
          ∀ a' b' : ℝ, Spec.sse a' b' l ≤ Spec.sse a b l → a' = a ∧ b' = b)
      ∧ ((∀ p ∈ l, ∀ q ∈ l, p.1 = q.1) → b = 0 ∧ a = Spec.mean (Spec.ysOf l)) := by
  intro l
  obtain ⟨s, hs, _, hsl, hat⟩ := window_regression_result (ε := ε) hN ops hne
  have hlne : l ≠ [] := by
    have := List.length_pos_iff.2 hne
    apply List.length_pos_iff.1
    rw [Spec.length_lastN]; omega
  refine ⟨s, hs, Spec.mean (Spec.ysOf l) - (if Spec.central 2 (Spec.xsOf l) = 0 then 0
      else Spec.cosum l / Spec.central 2 (Spec.xsOf l)) * Spec.mean (Spec.xsOf l), _, hsl,
      fun x => (hat x).trans ?_, ?_, ?_, ?_⟩
  · rw [X.fin_inj]; ring
  · apply Spec.sse_min
    · ring
    · split_ifs with hc
      · rw [Spec.cosum_eq_zero_of hc]; ring
      · exact div_mul_cancel₀ _ hc
  · rintro ⟨p, hp, q, hq, hpq⟩ a' b' hle
    have hc : Spec.central 2 (Spec.xsOf l) ≠ 0 := by
      rw [Ne, Spec.central_two_eq_zero]
      intro hall
      exact hpq (hall p.1 (List.mem_map_of_mem hp) q.1 (List.mem_map_of_mem hq))
    refine Spec.sse_min_unique hlne ?_ ?_ hc hle
    · ring
    · rw [if_neg hc]; exact div_mul_cancel₀ _ hc
  · intro hall
    have hc : Spec.central 2 (Spec.xsOf l) = 0 := by
      rw [Spec.central_two_eq_zero]
      intro x hx y hy
      obtain ⟨p, hp, rfl⟩ := List.mem_map.1 hx
      obtain ⟨q, hq, rfl⟩ := List.mem_map.1 hy
      exact hall p hp q hq
    rw [if_pos hc]
    exact ⟨rfl, by ring⟩

/-- C13 (window): data on a line is reproduced exactly. -/
theorem C13_exact_line_window (hN : 1 ≤ N) (ops : List (Op (ℝ × ℝ))) (a b : ℝ)
    (hline : ∀ p ∈ Spec.lastN N (sinceClear ops), p.2 = a * p.1 + b)
    (hx : ∃ p ∈ Spec.lastN N (sinceClear ops), ∃ q ∈ Spec.lastN N (sinceClear ops), p.1 ≠ q.1) :
    ∃ s : Regression N (E ε), Regression.run (finOps2 ops) = some s
      ∧ s.slope = X.fin a ∧ ∀ x : ℝ, s.at' (X.fin x) = X.fin (a * x + b) := by
  obtain ⟨p, hp, q, hq, hpq⟩ := hx
  have hlne : Spec.lastN N (sinceClear ops) ≠ [] := List.ne_nil_of_mem hp
  have hne : sinceClear ops ≠ [] := by
    intro e; rw [e] at hlne; exact hlne (by simp [Spec.lastN])
  have hc : Spec.central 2 (Spec.xsOf (Spec.lastN N (sinceClear ops))) ≠ 0 := by
    rw [Ne, Spec.central_two_eq_zero]
    intro hall
    exact hpq (hall p.1 (List.mem_map_of_mem hp) q.1 (List.mem_map_of_mem hq))
  obtain ⟨s, hs, _, hsl, hat⟩ := window_regression_result (ε := ε) hN ops hne
  have hb : Spec.cosum (Spec.lastN N (sinceClear ops))
      / Spec.central 2 (Spec.xsOf (Spec.lastN N (sinceClear ops))) = a := by
    rw [Spec.cosum_of_line hline]; field_simp
  refine ⟨s, hs, hsl.trans ?_, fun x => (hat x).trans ?_⟩
  · rw [if_neg hc, hb]
  · rw [if_neg hc, hb, Spec.mean_ys_of_line hlne hline, X.fin_inj]; ring

/-- The first pair, which is not on the line, has left the window. -/
example : ∃ s : Regression 2 (E ε),
    Regression.run (finOps2 [.push (5, 5), .push (0, 1), .push (2, 7)]) = some s
    ∧ s.slope = X.fin 3 ∧ ∀ x : ℝ, s.at' (X.fin x) = X.fin (3 * x + 1) := by
  have e : Spec.lastN 2 (sinceClear [.push (5, 5), .push (0, 1), .push (2, 7)])
      = ([(0, 1), (2, 7)] : List (ℝ × ℝ)) := rfl
  exact C13_exact_line_window (by norm_num) _ 3 1 (by rw [e]; simp; norm_num)
    (by rw [e]; exact ⟨(0, 1), by simp, (2, 7), by simp, by norm_num⟩)

/-! ### C22 -/

/-- C22 as stated, for the mean: histories of arbitrary values (also NaN, infinities) that end in the
same `N` values give the same mean. -/
def C22_Statement (N : Nat) (ε : ℝ) : Prop :=
  ∀ ops ops' : List (Op (E ε)),
    N ≤ (sinceClear ops).length → N ≤ (sinceClear ops').length →
    Spec.lastN N (sinceClear ops) = Spec.lastN N (sinceClear ops') →
    (Mean.run ops : Option (Mean N (E ε))).map Mean.getMean
      = (Mean.run ops' : Option (Mean N (E ε))).map Mean.getMean

/-- Once the mean is NaN it stays NaN. -/
theorem window_nan_persists {F : Fmt} (hN : 1 ≤ N) (s : Mean N (X F)) (hs : s.mean = X.nan) (x : X F) :
    ∃ s', s.push x = some s' ∧ s'.mean = X.nan := by
  obtain ⟨s', hs', _⟩ := Mean.push_some hN s x
  refine ⟨s', hs', ?_⟩
  have hnan : ∀ y : X F, (X.nan + y : X F) = X.nan := fun y => by cases y <;> rfl
  unfold Mean.push at hs'
  by_cases hf : s.full = true
  · rw [if_pos hf] at hs'
    cases hfr : s.window.front with
    | none => rw [hfr] at hs'; simp at hs'
    | some f =>
      rw [hfr] at hs'
      simp only [Option.some.injEq] at hs'
      rw [← hs', hs]
      exact hnan _
  · rw [if_neg hf, Option.some.injEq] at hs'
    rw [← hs', hs]
    exact hnan _

/-- C22 is violated for every window size: one NaN poisons the mean forever, although it left the window
long ago. -/
theorem C22_forget_violated (hN : 1 ≤ N) : ¬ C22_Statement N ε := by
  intro hst
  have e1 : sinceClear (.push X.nan :: (List.replicate N (X.fin 1 : E ε)).map Op.push)
      = X.nan :: List.replicate N (X.fin 1) := by
    have := sinceClear_pushes (X.nan :: List.replicate N (X.fin 1 : E ε))
    simpa using this
  have e2 : sinceClear ((List.replicate N (X.fin 1 : E ε)).map Op.push)
      = List.replicate N (X.fin 1) := sinceClear_pushes _
  have h := hst (.push X.nan :: (List.replicate N (X.fin 1)).map Op.push)
    ((List.replicate N (X.fin 1)).map Op.push) (by rw [e1]; simp) (by rw [e2]; simp)
    (by rw [e1, e2]; simp [Spec.lastN])
  have hpos : (Mean.run ((List.replicate N (X.fin 1 : E ε)).map Op.push)
      : Option (Mean N (E ε))).map Mean.getMean = some (X.fin 1) := by
    have : (List.replicate N (X.fin 1 : E ε)).map Op.push
        = finOps ((List.replicate N (1 : ℝ)).map Op.push) := by
      simp [finOps, Op.map]
    rw [this, Mean.run_fin hN, Option.map_some, sinceClear_pushes, Spec.lastN_of_le (by simp)]
    simp only [Mean.of, Mean.getMean, Option.some.injEq, X.fin_inj]
    exact Spec.mean_const (by simp; omega) (by simp)
  have hneg : (Mean.run (.push X.nan :: (List.replicate N (X.fin 1 : E ε)).map Op.push)
      : Option (Mean N (E ε))).map Mean.getMean = some X.nan := by
    rw [Mean.run_eq hN, e1]
    generalize List.replicate N (X.fin 1 : E ε) = l
    have : ∃ s : Mean N (E ε), (X.nan :: l).foldl (fun s x => s.bind (Mean.push · x)) (some Mean.init)
        = some s ∧ s.mean = X.nan := by
      induction l using List.reverseRecOn with
      | nil =>
        have hf : ¬ (Mean.init : Mean N (E ε)).full = true := by
          simp [Mean.full, Mean.init, Ring.init, Ring.full]; omega
        refine ⟨⟨Mean.init.window.pushBack X.nan,
          Mean.init.mean + (X.nan - Mean.init.mean) / ofNat (Mean.init.size + 1)⟩, by
          simp only [List.foldl_cons, List.foldl_nil, Option.bind_some, Mean.push, if_neg hf]; rfl, ?_⟩
        simp only [Mean.init, Mean.size, Ring.size, Ring.init, Exact.ofNat_eq]
        rfl
      | append_singleton l x ih =>
        obtain ⟨s, hs, hm⟩ := ih
        obtain ⟨s', hs', hm'⟩ := window_nan_persists hN s hm x
        refine ⟨s', ?_, hm'⟩
        rw [← List.cons_append, List.foldl_append, hs]
        exact hs'
    obtain ⟨s, hs, hm⟩ := this
    rw [hs, Option.map_some, Mean.getMean, hm]
  rw [hpos, hneg] at h
  cases h

/-- C22, the part that holds: with finite values in exact arithmetic all four window filters end in the
same state when the last `N` values agree.  Missing: NaN and infinities (violated, see above) and rounding
errors, which accumulate in the same way. -/
theorem C22_forget_partial (hN : 1 ≤ N) (ops ops' : List (Op ℝ)) (ops2 ops2' : List (Op (ℝ × ℝ)))
    (h : Spec.lastN N (sinceClear ops) = Spec.lastN N (sinceClear ops'))
    (h2 : Spec.lastN N (sinceClear ops2) = Spec.lastN N (sinceClear ops2')) :
    (Mean.run (finOps ops) : Option (Mean N (E ε))) = Mean.run (finOps ops')
    ∧ (Variance.run (finOps ops) : Option (Variance N (E ε))) = Variance.run (finOps ops')
    ∧ (Comoment.run (finOps2 ops2) : Option (Comoment N (E ε))) = Comoment.run (finOps2 ops2')
    ∧ (Regression.run (finOps2 ops2) : Option (Regression N (E ε))) = Regression.run (finOps2 ops2') := by
  rw [Mean.run_fin hN, Mean.run_fin hN, Variance.run_fin hN, Variance.run_fin hN, Comoment.run_fin hN,
    Comoment.run_fin hN, Regression.run_fin hN, Regression.run_fin hN, h, h2]
  exact ⟨rfl, rfl, rfl, rfl⟩

example : (Variance.run (finOps [.push 100, .push 1, .push 2]) : Option (Variance 2 (E ε)))
    = Variance.run (finOps [.push (-5), .push 1, .push 2]) :=
  (C22_forget_partial (by norm_num) [.push 100, .push 1, .push 2] [.push (-5), .push 1, .push 2] [] []
    rfl rfl).2.1

/-- C22, any arithmetic: the values held in the window are the last `N`, bit for bit, and `clear()` makes
every window filter forget everything, also NaN. -/
theorem C22_clear {α : Type} [Scalar α] (hN : 1 ≤ N) (pre post : List (Op α))
    (pre2 post2 : List (Op (α × α))) :
    (Mean.run (pre ++ .clear :: post) : Option (Mean N α)) = Mean.run post
    ∧ (Variance.run (pre ++ .clear :: post) : Option (Variance N α)) = Variance.run post
    ∧ (Comoment.run (pre2 ++ .clear :: post2) : Option (Comoment N α)) = Comoment.run post2
    ∧ (Regression.run (pre2 ++ .clear :: post2) : Option (Regression N α)) = Regression.run post2 := by
  rw [Mean.run_eq hN, Mean.run_eq hN, Variance.run_eq hN, Variance.run_eq hN, Comoment.run_eq hN,
    Comoment.run_eq hN, Regression.run_eq hN, Regression.run_eq hN, sinceClear_clear_append,
    sinceClear_clear_append]
  exact ⟨rfl, rfl, rfl, rfl⟩

end Verif.Props
