import Verif.Props.InputError
import Mathlib.Analysis.MeanInequalities
/-
C191: skewness and kurtosis of data with measurement errors.
-/
namespace Verif.Props
open Scalar Exact Cumulative

variable {w : Nat} {ε δ : ℝ}

/-- The deviations from the mean change by at most twice the error. -/
theorem deviation_measured {ps : List (ℝ × ℝ)} (hm : Measured δ ps) :
    ∀ q ∈ ps, |(q.2 - Spec.mean (ps.map Prod.snd)) - (q.1 - Spec.mean (ps.map Prod.fst))| ≤ 2 * δ := by
  intro q hq
  have h1 := Window.abs_mean_le hm.1 hm.errors
  rw [← linear_error linear_mean] at h1
  have h1 := abs_le.1 h1
  have h2 := abs_le.1 (hm.2 q hq)
  exact abs_le.2 ⟨by linarith, by linarith⟩

theorem cubes_measured {a b : ℝ} (h : |b - a| ≤ 2 * δ) : |b ^ 3 - a ^ 3| ≤ 3 * δ * (a ^ 2 + b ^ 2) := by
  rw [show b ^ 3 - a ^ 3 = (b - a) * (a ^ 2 + a * b + b ^ 2) by ring, abs_mul]
  have h0 : 0 ≤ a ^ 2 + a * b + b ^ 2 := by nlinarith [sq_nonneg (a + b), sq_nonneg a, sq_nonneg b]
  rw [abs_of_nonneg h0]
  have h1 := mul_le_mul_of_nonneg_right h h0
  have h2 : 0 ≤ δ := by have := (abs_nonneg _).trans h; linarith
  have h3 := mul_nonneg h2 (sq_nonneg (a - b))
  nlinarith

theorem sum_cubes_measured (m m' : ℝ) (ps : List (ℝ × ℝ)) (h : ∀ q ∈ ps, |(q.2 - m') - (q.1 - m)| ≤ 2 * δ) :
    |((ps.map Prod.snd).map fun x => (x - m') ^ 3).sum - ((ps.map Prod.fst).map fun x => (x - m) ^ 3).sum|
      ≤ 3 * δ * (((ps.map Prod.fst).map fun x => (x - m) ^ 2).sum + ((ps.map Prod.snd).map fun x => (x - m') ^ 2).sum) := by
  induction ps with
  | nil => simp
  | cons q t ih =>
    simp only [List.map_cons, List.sum_cons]
    have h1 := abs_le.1 (cubes_measured (h q (by simp)))
    have h2 := abs_le.1 (ih fun r hr => h r (List.mem_cons_of_mem _ hr))
    exact abs_le.2 ⟨by nlinarith, by nlinarith⟩

/-- The third central moment. -/
theorem central_three_measured {ps : List (ℝ × ℝ)} (hm : Measured δ ps) :
    |Spec.central 3 (ps.map Prod.snd) - Spec.central 3 (ps.map Prod.fst)|
      ≤ 3 * δ * (Spec.central 2 (ps.map Prod.fst) + Spec.central 2 (ps.map Prod.snd)) :=
  sum_cubes_measured _ _ ps (deviation_measured hm)

/-- The skewness of measured data.  `s` and `s'` are the standard deviations of the true and the measured data. -/
theorem skewness_measured {ps : List (ℝ × ℝ)} (hne : ps ≠ []) (hm : Measured δ ps) {s s' : ℝ}
    (hs : s = √(Spec.variance (ps.map Prod.fst))) (hs' : s' = √(Spec.variance (ps.map Prod.snd))) (h0 : 0 < s) (h0' : 0 < s') :
    |Spec.skewness (ps.map Prod.snd) - Spec.skewness (ps.map Prod.fst)| * s' ^ 3
      ≤ δ * (3 * (s ^ 2 + s' ^ 2) + |Spec.skewness (ps.map Prod.fst)| * (s ^ 2 + s * s' + s' ^ 2)) := by
  have hn : (0 : ℝ) < ps.length := by exact_mod_cast List.length_pos_iff.2 hne
  have hd := sqrt_variance_error hne hm
  have v1 := Real.sq_sqrt (variance_nonneg (ps.map Prod.fst))
  have v2 := Real.sq_sqrt (variance_nonneg (ps.map Prod.snd))
  have c3 := central_three_measured hm
  have e1 : Spec.skewness (ps.map Prod.fst) = Spec.central 3 (ps.map Prod.fst) / ps.length / s ^ 3 := by
    rw [Spec.skewness, hs, List.length_map]
  have e2 : Spec.skewness (ps.map Prod.snd) = Spec.central 3 (ps.map Prod.snd) / ps.length / s' ^ 3 := by
    rw [Spec.skewness, hs', List.length_map]
  rw [← hs] at hd v1
  rw [← hs'] at hd v2
  have w1 : Spec.central 2 (ps.map Prod.fst) = ps.length * s ^ 2 := by
    rw [v1, Spec.variance, List.length_map]; field_simp
  have w2 : Spec.central 2 (ps.map Prod.snd) = ps.length * s' ^ 2 := by
    rw [v2, Spec.variance, List.length_map]; field_simp
  rw [w1, w2] at c3
  generalize Spec.skewness (ps.map Prod.fst) = g at *
  generalize Spec.skewness (ps.map Prod.snd) = g' at *
  have p1 : Spec.central 3 (ps.map Prod.fst) = ps.length * (g * s ^ 3) := by rw [e1]; field_simp
  have p2 : Spec.central 3 (ps.map Prod.snd) = ps.length * (g' * s' ^ 3) := by rw [e2]; field_simp
  rw [p1, p2, ← mul_sub, abs_mul, abs_of_pos hn] at c3
  have c3 : |g' * s' ^ 3 - g * s ^ 3| ≤ 3 * δ * (s ^ 2 + s' ^ 2) := by
    refine le_of_mul_le_mul_left (c3.trans (le_of_eq ?_)) hn
    ring
  have d3 : |s ^ 3 - s' ^ 3| ≤ δ * (s ^ 2 + s * s' + s' ^ 2) := by
    rw [show s ^ 3 - s' ^ 3 = (s - s') * (s ^ 2 + s * s' + s' ^ 2) by ring, abs_mul, abs_sub_comm]
    rw [abs_of_nonneg (by positivity : 0 ≤ s ^ 2 + s * s' + s' ^ 2)]
    exact mul_le_mul_of_nonneg_right hd (by positivity)
  have t : (g' - g) * s' ^ 3 = (g' * s' ^ 3 - g * s ^ 3) + g * (s ^ 3 - s' ^ 3) := by ring
  rw [← abs_of_pos (pow_pos h0' 3), ← abs_mul, t]
  refine (abs_add_le _ _).trans ?_
  rw [abs_mul]
  have := mul_le_mul_of_nonneg_left d3 (abs_nonneg g)
  linarith

/-- C191: the skewness of true and measured data, if the sums of the cubes are above the cut-off of the filter. -/
theorem C191_skewness (hε : 0 < ε) (ops : List (Op (ℝ × ℝ))) (h : (sinceClear ops).length < 2 ^ w)
    (hm : Measured δ (sinceClear ops)) (hc : ε ≤ Spec.central 3 ((sinceClear ops).map Prod.fst))
    (hc' : ε ≤ Spec.central 3 ((sinceClear ops).map Prod.snd)) :
    ∃ g g' v v' : ℝ, (Skewness.run (finOps (firsts ops)) : Skewness w (E ε)).skewness = X.fin g
      ∧ (Skewness.run (finOps (seconds ops)) : Skewness w (E ε)).skewness = X.fin g'
      ∧ (Variance.run (finOps (firsts ops)) : Variance w (E ε)).variance = X.fin v
      ∧ (Variance.run (finOps (seconds ops)) : Variance w (E ε)).variance = X.fin v'
      ∧ 0 < v ∧ 0 < v' ∧ |g' - g| * √v' ^ 3 ≤ δ * (3 * (v + v') + |g| * (v + √v * √v' + v')) := by
  have l1 : (sinceClear (firsts ops)).length = (sinceClear ops).length := by rw [sinceClear_firsts, List.length_map]
  have l2 : (sinceClear (seconds ops)).length = (sinceClear ops).length := by rw [sinceClear_seconds, List.length_map]
  have hne : sinceClear ops ≠ [] := by
    intro e; rw [e] at hc; simp [Spec.central] at hc; linarith
  have hpos := List.length_pos_iff.2 hne
  have pos : ∀ xs : List ℝ, ε ≤ Spec.central 3 xs → 0 < Spec.variance xs := by
    intro xs hx
    refine lt_of_le_of_ne (variance_nonneg xs) fun e => ?_
    rcases eq_or_ne xs [] with rfl | hxs
    · simp [Spec.central] at hx; linarith
    have hn : (xs.length : ℝ) ≠ 0 := by exact_mod_cast (List.length_pos_iff.2 hxs).ne'
    have : Spec.central 2 xs = 0 := by
      have := e.symm; rw [Spec.variance, div_eq_zero_iff] at this; exact this.resolve_right hn
    rw [central_three_of_two this] at hx
    linarith
  have q1 := skewness_result (w := w) hε (firsts ops) (by rw [l1]; exact h)
  have q2 := skewness_result (w := w) hε (seconds ops) (by rw [l2]; exact h)
  rw [sinceClear_firsts, if_neg (not_lt.2 hc)] at q1
  rw [sinceClear_seconds, if_neg (not_lt.2 hc')] at q2
  have r1 := ((C02_variance (w := w) (ε := ε) (firsts ops) (by rw [l1]; exact h)).1 (by rw [l1]; exact hpos)).1
  have r2 := ((C02_variance (w := w) (ε := ε) (seconds ops) (by rw [l2]; exact h)).1 (by rw [l2]; exact hpos)).1
  rw [sinceClear_firsts] at r1
  rw [sinceClear_seconds] at r2
  refine ⟨_, _, _, _, q1, q2, r1, r2, pos _ hc, pos _ hc', ?_⟩
  have := skewness_measured hne hm rfl rfl (Real.sqrt_pos.2 (pos _ hc)) (Real.sqrt_pos.2 (pos _ hc'))
  rwa [Real.sq_sqrt (variance_nonneg _), Real.sq_sqrt (variance_nonneg _)] at this

theorem abs_rpow_four (x : ℝ) : |x| ^ (4 : ℝ) = x ^ 4 := by
  rw [show (4 : ℝ) = ((4 : ℕ) : ℝ) by norm_num, Real.rpow_natCast]
  exact (by decide : Even 4).pow_abs x

/-- The fourth root of a sum of fourth powers is a norm. -/
theorem root_four_error {n : ℕ} (a b : Fin n → ℝ) {e : ℝ} (he : 0 ≤ e) (h : ∀ i, |b i - a i| ≤ e) :
    |(∑ i, b i ^ 4) ^ (1 / 4 : ℝ) - (∑ i, a i ^ 4) ^ (1 / 4 : ℝ)| ≤ (n : ℝ) ^ (1 / 4 : ℝ) * e := by
  have tri : ∀ f g : Fin n → ℝ, (∀ i, |g i - f i| ≤ e) →
      (∑ i, g i ^ 4) ^ (1 / 4 : ℝ) ≤ (∑ i, f i ^ 4) ^ (1 / 4 : ℝ) + (n : ℝ) ^ (1 / 4 : ℝ) * e := by
    intro f g hfg
    have hp := Real.Lp_add_le Finset.univ f (fun i => g i - f i) (p := 4) (by norm_num)
    simp only [abs_rpow_four, add_sub_cancel] at hp
    refine hp.trans (add_le_add le_rfl ?_)
    have hb : ∑ i, (g i - f i) ^ 4 ≤ n * e ^ 4 := by
      have := Finset.sum_le_card_nsmul Finset.univ (fun i => (g i - f i) ^ 4) (e ^ 4) (fun i _ => by
        rw [← (by decide : Even 4).pow_abs]
        exact pow_le_pow_left₀ (abs_nonneg _) (hfg i) 4)
      simpa using this
    have h0 : 0 ≤ ∑ i, (g i - f i) ^ 4 := Finset.sum_nonneg fun i _ => by positivity
    refine (Real.rpow_le_rpow h0 hb (by norm_num)).trans (le_of_eq ?_)
    rw [Real.mul_rpow (by positivity) (by positivity), ← Real.rpow_natCast e 4, ← Real.rpow_mul he]
    norm_num
  have h1 := tri a b h
  have h2 := tri b a (fun i => by rw [abs_sub_comm]; exact h i)
  exact abs_le.2 ⟨by linarith, by linarith⟩

/-- The fourth central moment. -/
theorem central_four_measured {ps : List (ℝ × ℝ)} (hm : Measured δ ps) :
    |(Spec.central 4 (ps.map Prod.snd)) ^ (1 / 4 : ℝ) - (Spec.central 4 (ps.map Prod.fst)) ^ (1 / 4 : ℝ)|
      ≤ (ps.length : ℝ) ^ (1 / 4 : ℝ) * (2 * δ) := by
  have hd := deviation_measured hm
  have := root_four_error (fun i : Fin ps.length => ps[i.1].1 - Spec.mean (ps.map Prod.fst))
    (fun i : Fin ps.length => ps[i.1].2 - Spec.mean (ps.map Prod.snd)) (by linarith [hm.1]) (fun i => hd _ (List.getElem_mem _))
  rw [Fin.sum_univ_fun_getElem ps (fun q => (q.2 - Spec.mean (ps.map Prod.snd)) ^ 4),
    Fin.sum_univ_fun_getElem ps (fun q => (q.1 - Spec.mean (ps.map Prod.fst)) ^ 4)] at this
  simpa only [Spec.central, List.map_map, Function.comp_def] using this

theorem kurtosis_root {xs : List ℝ} (hne : xs ≠ []) {s : ℝ} (hs : s = √(Spec.variance xs)) (h0 : 0 < s) :
    Spec.central 4 xs ^ (1 / 4 : ℝ) = (xs.length : ℝ) ^ (1 / 4 : ℝ) * (Spec.kurtosis xs ^ (1 / 4 : ℝ) * s) := by
  have hn : (0 : ℝ) < xs.length := by exact_mod_cast List.length_pos_iff.2 hne
  have hv : Spec.variance xs = s ^ 2 := by rw [hs, Real.sq_sqrt (variance_nonneg xs)]
  have h4 : 0 ≤ Spec.central 4 xs := by
    refine List.sum_nonneg fun y hy => ?_
    obtain ⟨x, -, rfl⟩ := List.mem_map.1 hy
    positivity
  have hk : 0 ≤ Spec.kurtosis xs := by rw [Spec.kurtosis]; positivity
  have e : Spec.central 4 xs = xs.length * (Spec.kurtosis xs * s ^ 4) := by
    rw [Spec.kurtosis, hv]; field_simp
  have hs4 : (s ^ 4) ^ (1 / 4 : ℝ) = s := by
    rw [← Real.rpow_natCast s 4, ← Real.rpow_mul h0.le]; norm_num
  conv_lhs => rw [e]
  rw [Real.mul_rpow hn.le (by positivity), Real.mul_rpow hk (by positivity), hs4]

/-- The kurtosis of measured data. -/
theorem kurtosis_measured {ps : List (ℝ × ℝ)} (hne : ps ≠ []) (hm : Measured δ ps) {s s' : ℝ}
    (hs : s = √(Spec.variance (ps.map Prod.fst))) (hs' : s' = √(Spec.variance (ps.map Prod.snd))) (h0 : 0 < s) (h0' : 0 < s') :
    |Spec.kurtosis (ps.map Prod.snd) ^ (1 / 4 : ℝ) - Spec.kurtosis (ps.map Prod.fst) ^ (1 / 4 : ℝ)| * s'
      ≤ δ * (2 + Spec.kurtosis (ps.map Prod.fst) ^ (1 / 4 : ℝ)) := by
  have hn : (0 : ℝ) < ps.length := by exact_mod_cast List.length_pos_iff.2 hne
  have hd := sqrt_variance_error hne hm
  have c4 := central_four_measured hm
  rw [kurtosis_root (by simpa using hne) hs h0, kurtosis_root (by simpa using hne) hs' h0', List.length_map, List.length_map,
    ← mul_sub, abs_mul, abs_of_nonneg (by positivity)] at c4
  have c4 := le_of_mul_le_mul_left c4 (by positivity)
  have hk : 0 ≤ Spec.kurtosis (ps.map Prod.fst) ^ (1 / 4 : ℝ) := by
    refine Real.rpow_nonneg ?_ _
    have : 0 ≤ Spec.central 4 (ps.map Prod.fst) := by
      refine List.sum_nonneg fun y hy => ?_
      obtain ⟨x, -, rfl⟩ := List.mem_map.1 hy
      positivity
    rw [Spec.kurtosis]; positivity
  rw [← hs, ← hs', abs_sub_comm] at hd
  generalize Spec.kurtosis (ps.map Prod.fst) ^ (1 / 4 : ℝ) = k at *
  generalize Spec.kurtosis (ps.map Prod.snd) ^ (1 / 4 : ℝ) = k' at *
  rw [← abs_of_pos h0', ← abs_mul, show (k' - k) * s' = (k' * s' - k * s) + k * (s - s') by ring]
  refine (abs_add_le _ _).trans ?_
  rw [abs_mul, abs_of_nonneg hk]
  have := mul_le_mul_of_nonneg_left hd hk
  linarith

/-- C191: the kurtosis of true and measured data, if the sums of the fourth powers are above the cut-off of the filter. -/
theorem C191_kurtosis (hε : 0 < ε) (ops : List (Op (ℝ × ℝ))) (h : (sinceClear ops).length * (sinceClear ops).length < 2 ^ w)
    (hm : Measured δ (sinceClear ops)) (hc : ε ≤ Spec.central 4 ((sinceClear ops).map Prod.fst))
    (hc' : ε ≤ Spec.central 4 ((sinceClear ops).map Prod.snd)) :
    ∃ k k' v' : ℝ, (Kurtosis.run (finOps (firsts ops)) : Kurtosis w (E ε)).kurtosis = X.fin k
      ∧ (Kurtosis.run (finOps (seconds ops)) : Kurtosis w (E ε)).kurtosis = X.fin k'
      ∧ (Variance.run (finOps (seconds ops)) : Variance w (E ε)).variance = X.fin v'
      ∧ 0 < v' ∧ 1 ≤ k ∧ 1 ≤ k' ∧ |k' ^ (1 / 4 : ℝ) - k ^ (1 / 4 : ℝ)| * √v' ≤ δ * (2 + k ^ (1 / 4 : ℝ)) := by
  have l1 : (sinceClear (firsts ops)).length = (sinceClear ops).length := by rw [sinceClear_firsts, List.length_map]
  have l2 : (sinceClear (seconds ops)).length = (sinceClear ops).length := by rw [sinceClear_seconds, List.length_map]
  have hne : sinceClear ops ≠ [] := by
    intro e; rw [e] at hc; simp [Spec.central] at hc; linarith
  have hpos := List.length_pos_iff.2 hne
  have hlt : (sinceClear ops).length < 2 ^ w := by nlinarith
  have pos : ∀ xs : List ℝ, 1 ≤ Spec.kurtosis xs → 0 < Spec.variance xs := by
    intro xs hx
    refine lt_of_le_of_ne (variance_nonneg xs) fun e => ?_
    rw [Spec.kurtosis, ← e] at hx
    norm_num at hx
  have q1 := (C04_kurtosis (w := w) hε (firsts ops) (by rw [l1]; exact h)).2
  have q2 := (C04_kurtosis (w := w) hε (seconds ops) (by rw [l2]; exact h)).2
  rw [sinceClear_firsts] at q1
  rw [sinceClear_seconds] at q2
  obtain ⟨q1, k1⟩ := q1 hc
  obtain ⟨q2, k2⟩ := q2 hc'
  have r2 := ((C02_variance (w := w) (ε := ε) (seconds ops) (by rw [l2]; exact hlt)).1 (by rw [l2]; exact hpos)).1
  rw [sinceClear_seconds] at r2
  refine ⟨_, _, _, q1, q2, r2, pos _ k2, k1, k2, ?_⟩
  exact kurtosis_measured hne hm rfl rfl (Real.sqrt_pos.2 (pos _ k1)) (Real.sqrt_pos.2 (pos _ k2))

/-- The true data 0, 0, 3 are measured as 1, 0, 4. -/
example : ∃ g g' v v' : ℝ, (Skewness.run (finOps (firsts [.push (0, 1), .push (0, 0), .push (3, 4)])) : Skewness 64 (E 1)).skewness = X.fin g
      ∧ (Skewness.run (finOps (seconds [.push (0, 1), .push (0, 0), .push (3, 4)])) : Skewness 64 (E 1)).skewness = X.fin g'
      ∧ (Variance.run (finOps (firsts [.push (0, 1), .push (0, 0), .push (3, 4)])) : Variance 64 (E 1)).variance = X.fin v
      ∧ (Variance.run (finOps (seconds [.push (0, 1), .push (0, 0), .push (3, 4)])) : Variance 64 (E 1)).variance = X.fin v'
      ∧ 0 < v ∧ 0 < v' ∧ |g' - g| * √v' ^ 3 ≤ 1 * (3 * (v + v') + |g| * (v + √v * √v' + v')) :=
  C191_skewness (w := 64) (ε := 1) (δ := 1) one_pos [.push (0, 1), .push (0, 0), .push (3, 4)] (by simp [sinceClear])
    ⟨zero_le_one, by simp [sinceClear]; norm_num⟩ (by simp [sinceClear, Spec.central, Spec.mean]; norm_num)
    (by simp [sinceClear, Spec.central, Spec.mean]; norm_num)

example : ∃ k k' v' : ℝ, (Kurtosis.run (finOps (firsts [.push (0, 1), .push (0, 0), .push (3, 4)])) : Kurtosis 64 (E 1)).kurtosis = X.fin k
      ∧ (Kurtosis.run (finOps (seconds [.push (0, 1), .push (0, 0), .push (3, 4)])) : Kurtosis 64 (E 1)).kurtosis = X.fin k'
      ∧ (Variance.run (finOps (seconds [.push (0, 1), .push (0, 0), .push (3, 4)])) : Variance 64 (E 1)).variance = X.fin v'
      ∧ 0 < v' ∧ 1 ≤ k ∧ 1 ≤ k' ∧ |k' ^ (1 / 4 : ℝ) - k ^ (1 / 4 : ℝ)| * √v' ≤ 1 * (2 + k ^ (1 / 4 : ℝ)) :=
  C191_kurtosis (w := 64) (ε := 1) (δ := 1) one_pos [.push (0, 1), .push (0, 0), .push (3, 4)] (by simp [sinceClear])
    ⟨zero_le_one, by simp [sinceClear]; norm_num⟩ (by simp [sinceClear, Spec.central, Spec.mean]; norm_num)
    (by simp [sinceClear, Spec.central, Spec.mean]; norm_num)

end Verif.Props
