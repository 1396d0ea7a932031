import Verif.Props.Window
/-
C197: how a new value that displaces the oldest one changes mean, variance and covariance of a full window.
-/
namespace Verif.Spec

/-- The last `N` of the data before and after a push into a full window. -/
theorem lastN_full {β : Type} {N : Nat} {xs o l : List β} {a : β} (hx : xs = o ++ a :: l) (hN : l.length + 1 = N) (x : β) :
    lastN N xs = a :: l ∧ lastN N (xs ++ [x]) = l ++ [x] := by
  subst hx hN
  constructor
  · rw [lastN, List.drop_append_of_le_length (by simp), List.drop_of_length_le (by simp)]; rfl
  · have e : o ++ a :: l ++ [x] = (o ++ [a]) ++ (l ++ [x]) := by simp
    have e2 : (o ++ [a] ++ (l ++ [x])).length - (l.length + 1) = (o ++ [a]).length := by simp; omega
    rw [e, lastN, e2, List.drop_left]

theorem mean_full_slide (a x : ℝ) (l : List ℝ) : mean (l ++ [x]) - mean (a :: l) = (x - a) / (l.length + 1) := by
  simp only [mean, List.sum_append, List.sum_cons, List.sum_nil, List.length_append, List.length_cons, List.length_nil]
  push_cast
  ring

theorem covariance_slide (a x : ℝ × ℝ) (l : List (ℝ × ℝ)) :
    covariance (l ++ [x]) - covariance (a :: l)
      = ((x.1 - mean (xsOf (a :: l))) * (x.2 - mean (ysOf (l ++ [x])))
        - (a.1 - mean (xsOf (a :: l))) * (a.2 - mean (ysOf (l ++ [x])))) / (l.length + 1) := by
  have hn : (l.length : ℝ) + 1 ≠ 0 := by positivity
  simp only [covariance, cosum_eq, mean, xsOf, ysOf, List.map_append, List.map_cons, List.map_nil, List.sum_append, List.sum_cons,
    List.sum_nil, List.length_append, List.length_cons, List.length_nil, List.length_map]
  push_cast
  field_simp
  ring

theorem variance_slide (a x : ℝ) (l : List ℝ) :
    variance (l ++ [x]) - variance (a :: l) = (x - a) * (x + a - mean (a :: l) - mean (l ++ [x])) / (l.length + 1) := by
  have hn : (l.length : ℝ) + 1 ≠ 0 := by positivity
  simp only [variance, central_two_eq, mean, List.map_append, List.map_cons, List.map_nil, List.sum_append, List.sum_cons,
    List.sum_nil, List.length_append, List.length_cons, List.length_nil]
  push_cast
  field_simp
  ring

end Verif.Spec

namespace Verif.Props
open Scalar Exact

variable {N : Nat} {ε : ℝ}

open Window in
/-- C197: the mean of a full window moves by `(x - a) / N`, where `a` is the value that leaves. -/
theorem C197_mean (ops : List (Op ℝ)) (o l : List ℝ) (a x : ℝ) (hx : sinceClear ops = o ++ a :: l) (hN : l.length + 1 = N) :
    ∃ (s s' : Mean N (E ε)) (m m' : ℝ), Mean.run (finOps ops) = some s ∧ Mean.run (finOps (ops ++ [.push x])) = some s'
      ∧ s.getMean = X.fin m ∧ s'.getMean = X.fin m' ∧ m' - m = (x - a) / N := by
  obtain ⟨s, h1, h2⟩ := C18_window_mean (N := N) (ε := ε) (by omega) ops
  obtain ⟨s', h3, h4⟩ := C18_window_mean (N := N) (ε := ε) (by omega) (ops ++ [.push x])
  rw [sinceClear_append_push] at h4
  rw [(Spec.lastN_full hx hN x).1] at h2
  rw [(Spec.lastN_full hx hN x).2] at h4
  refine ⟨s, s', _, _, h1, h3, h2, h4, ?_⟩
  rw [Spec.mean_full_slide, ← hN]; push_cast; rfl

open Window in
/-- C197: the variance of a full window changes by `(x - a) (x + a - m - m') / N`; it rises if and only if this product is
positive, and it stays the same if and only if `x = a` or the centre of `x` and `a` is the centre of the two means. -/
theorem C197_variance (ops : List (Op ℝ)) (o l : List ℝ) (a x : ℝ) (hx : sinceClear ops = o ++ a :: l) (hN : l.length + 1 = N) :
    ∃ (s s' : Variance N (E ε)) (m m' v v' : ℝ), Variance.run (finOps ops) = some s
      ∧ Variance.run (finOps (ops ++ [.push x])) = some s' ∧ s.getMean = X.fin m ∧ s'.getMean = X.fin m'
      ∧ s.variance = X.fin v ∧ s'.variance = X.fin v'
      ∧ v' - v = (x - a) * (x + a - m - m') / N
      ∧ (v < v' ↔ 0 < (x - a) * (x + a - m - m'))
      ∧ (v' = v ↔ x = a ∨ x + a = m + m')
      ∧ (2 ≤ N → ∃ u u' : ℝ, s.unbiasedVariance = X.fin u ∧ s'.unbiasedVariance = X.fin u'
        ∧ u' - u = (x - a) * (x + a - m - m') / (N - 1)) := by
  have hN1 : 1 ≤ N := by omega
  have hp : (0 : ℝ) < N := by exact_mod_cast hN1
  obtain ⟨s, h1, h2, -, h3, -⟩ := C19_window_variance (N := N) (ε := ε) hN1 ops
  obtain ⟨s', h4, h5, -, h6, -⟩ := C19_window_variance (N := N) (ε := ε) hN1 (ops ++ [.push x])
  obtain ⟨t, r, g1, g2, g3, -⟩ := C18_window_mean_inherited (α := E ε) hN1 (finOps ops)
  obtain ⟨t', r', g4, g5, g6, -⟩ := C18_window_mean_inherited (α := E ε) hN1 (finOps (ops ++ [.push x]))
  obtain ⟨q, k1, k2⟩ := C18_window_mean (N := N) (ε := ε) hN1 ops
  obtain ⟨q', k3, k4⟩ := C18_window_mean (N := N) (ε := ε) hN1 (ops ++ [.push x])
  obtain rfl := Option.some.inj (h1.symm.trans g1)
  obtain rfl := Option.some.inj (h4.symm.trans g4)
  obtain rfl := Option.some.inj (k1.symm.trans g2)
  obtain rfl := Option.some.inj (k3.symm.trans g5)
  rw [sinceClear_append_push] at h5 h6 k4
  obtain ⟨e1, e2⟩ := Spec.lastN_full hx hN x
  rw [e1] at h2 h3 k2
  rw [e2] at h5 h6 k4
  have hd := Spec.variance_slide a x l
  have hNe : (l.length : ℝ) + 1 = N := by rw [← hN]; push_cast; rfl
  rw [hNe] at hd
  refine ⟨s, s', _, _, _, _, h1, h4, g3.trans k2, g6.trans k4, h2 (by simp), h5 (by simp), hd, ?_, ?_, ?_⟩
  · rw [← sub_pos, hd, div_pos_iff_of_pos_right hp]
  · rw [← sub_eq_zero, hd, div_eq_zero_iff, or_iff_left hp.ne', mul_eq_zero, sub_eq_zero]
    refine or_congr Iff.rfl ⟨fun h => by linarith, fun h => by linarith⟩
  · intro hN2
    have hq : (0 : ℝ) < N - 1 := by
      have : (2 : ℝ) ≤ N := by exact_mod_cast hN2
      linarith
    refine ⟨_, _, h3 (by simp; omega), h6 (by simp; omega), ?_⟩
    have c1 : ((a :: l).length : ℝ) = N := by rw [List.length_cons, ← hN]
    have c2 : ((l ++ [x]).length : ℝ) = N := by rw [List.length_append, List.length_singleton, ← hN]
    rw [Spec.variance, Spec.variance, c1, c2] at hd
    rw [Spec.sampleVariance, Spec.sampleVariance, c1, c2, ← sub_div, div_left_inj' hq.ne']
    rw [← sub_div, div_left_inj' hp.ne'] at hd
    exact hd

open Window in
/-- C197: the covariance of a full window changes by `((x - m) (y - k') - (a - m) (b - k')) / N`, where `(a, b)` is the pair
that leaves, `m` the mean of the `x` before and `k'` the mean of the `y` after the push. -/
theorem C197_covariance (ops : List (Op (ℝ × ℝ))) (o l : List (ℝ × ℝ)) (a x : ℝ × ℝ) (hx : sinceClear ops = o ++ a :: l)
    (hN : l.length + 1 = N) :
    ∃ (s s' : Comoment N (E ε)) (c c' : ℝ), Comoment.run (finOps2 ops) = some s
      ∧ Comoment.run (finOps2 (ops ++ [.push x])) = some s' ∧ s.variance = X.fin c ∧ s'.variance = X.fin c'
      ∧ c' - c = ((x.1 - Spec.mean (Spec.xsOf (a :: l))) * (x.2 - Spec.mean (Spec.ysOf (l ++ [x])))
        - (a.1 - Spec.mean (Spec.xsOf (a :: l))) * (a.2 - Spec.mean (Spec.ysOf (l ++ [x])))) / N := by
  obtain ⟨s, h1, -, h2, -⟩ := C20_window_covariance (N := N) (ε := ε) (by omega) ops
  obtain ⟨s', h3, -, h4, -⟩ := C20_window_covariance (N := N) (ε := ε) (by omega) (ops ++ [.push x])
  rw [sinceClear_append_push] at h4
  obtain ⟨e1, e2⟩ := Spec.lastN_full hx hN x
  rw [e1] at h2
  rw [e2] at h4
  refine ⟨s, s', _, _, h1, h3, h2 (by simp), h4 (by simp), ?_⟩
  rw [Spec.covariance_slide, ← hN]; push_cast; rfl

/-- The window 2, 4, 6 after 9: the new value 8 displaces 2, the mean rises by 2. -/
example : ∃ (s s' : Window.Mean 3 (E ε)) (m m' : ℝ), Window.Mean.run (finOps [.push 9, .push 2, .push 4, .push 6]) = some s
    ∧ Window.Mean.run (finOps ([.push 9, .push 2, .push 4, .push 6] ++ [.push 8])) = some s'
    ∧ s.getMean = X.fin m ∧ s'.getMean = X.fin m' ∧ m' - m = (8 - 2) / (3 : ℕ) :=
  C197_mean _ [9] [4, 6] 2 8 rfl rfl

/-- The new value 5 displaces 2 from 2, 4, 6: the variance falls, 3 * (7 - 4 - 5) < 0. -/
example : ∃ (s s' : Window.Variance 3 (E ε)) (v v' : ℝ), Window.Variance.run (finOps [.push 2, .push 4, .push 6]) = some s
    ∧ Window.Variance.run (finOps ([.push 2, .push 4, .push 6] ++ [.push 5])) = some s'
    ∧ s.variance = X.fin v ∧ s'.variance = X.fin v' ∧ v' - v = -2 := by
  obtain ⟨s, s', m, m', v, v', h1, h2, h3, h4, h5, h6, h7, -⟩ :=
    C197_variance (N := 3) (ε := ε) [.push 2, .push 4, .push 6] [] [4, 6] 2 5 rfl rfl
  obtain ⟨t, t', k, k', g1, g2, g3, g4, g5⟩ := C197_mean (N := 3) (ε := ε) [.push 2, .push 4, .push 6] [] [4, 6] 2 5 rfl rfl
  obtain ⟨q, r, i1, i2, i3, -⟩ := C18_window_mean_inherited (N := 3) (α := E ε) (by norm_num) (finOps [.push 2, .push 4, .push 6])
  obtain ⟨q', i4, i5⟩ := C18_window_mean (N := 3) (ε := ε) (by norm_num) [.push 2, .push 4, .push 6]
  obtain ⟨z, y, j1, j2, j3, -⟩ := C18_window_mean_inherited (N := 3) (α := E ε) (by norm_num)
    (finOps ([.push 2, .push 4, .push 6] ++ [.push 5]))
  obtain ⟨z', j4, j5⟩ := C18_window_mean (N := 3) (ε := ε) (by norm_num) ([.push 2, .push 4, .push 6] ++ [.push 5])
  obtain rfl := Option.some.inj (h1.symm.trans i1)
  obtain rfl := Option.some.inj (i2.symm.trans i4)
  obtain rfl := Option.some.inj (h2.symm.trans j1)
  obtain rfl := Option.some.inj (j2.symm.trans j4)
  have a1 := X.fin_inj.1 (h3.symm.trans (i3.trans i5))
  have a2 := X.fin_inj.1 (h4.symm.trans (j3.trans j5))
  have e1 : Spec.lastN 3 (sinceClear ([.push 2, .push 4, .push 6] : List (Op ℝ))) = [2, 4, 6] := rfl
  have e2 : Spec.lastN 3 (sinceClear ([.push 2, .push 4, .push 6] ++ [.push 5] : List (Op ℝ))) = [4, 6, 5] := rfl
  rw [e1] at a1
  rw [e2] at a2
  refine ⟨s, s', v, v', h1, h2, h5, h6, ?_⟩
  rw [h7, a1, a2]
  norm_num [Spec.mean]

/-- The pair (3, 5) displaces (1, 2) from (1, 2), (3, 4). -/
example : ∃ (s s' : Window.Comoment 2 (E ε)) (c c' : ℝ), Window.Comoment.run (finOps2 [.push (1, 2), .push (3, 4)]) = some s
    ∧ Window.Comoment.run (finOps2 ([.push (1, 2), .push (3, 4)] ++ [.push (3, 5)])) = some s'
    ∧ s.variance = X.fin c ∧ s'.variance = X.fin c' ∧ c' - c = -1 := by
  obtain ⟨s, s', c, c', h1, h2, h3, h4, h5⟩ :=
    C197_covariance (N := 2) (ε := ε) [.push (1, 2), .push (3, 4)] [] [(3, 4)] (1, 2) (3, 5) rfl rfl
  refine ⟨s, s', c, c', h1, h2, h3, h4, h5.trans ?_⟩
  norm_num [Spec.mean, Spec.xsOf, Spec.ysOf]

end Verif.Props
