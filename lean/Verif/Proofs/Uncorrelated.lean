import Verif.Proofs.Stochastic
/-
Linear combinations, variances and covariances of uncorrelated random values.
-/
namespace Verif.Stochastic
open MeasureTheory ProbabilityTheory

variable {Ω : Type} {mΩ : MeasurableSpace Ω} {P : Measure Ω} [IsProbabilityMeasure P]

/-- The values that are observed in the case `ω`. -/
def seen {β : Type} (xs : List (Ω → β)) (ω : Ω) : List β := xs.map fun Y => Y ω

omit mΩ in
@[simp] theorem seen_length {β : Type} (xs : List (Ω → β)) (ω : Ω) : (seen xs ω).length = xs.length := by simp [seen]

/-- Random values with finite second moments, the same variance `s`, and no correlation between any two. -/
structure Uncorrelated (xs : List (Ω → ℝ)) (P : Measure Ω) (s : ℝ) : Prop where
  memLp : ∀ Y ∈ xs, MemLp Y 2 P
  var : ∀ Y ∈ xs, Var[Y; P] = s
  uncorr : xs.Pairwise fun Y Z => cov[Y, Z; P] = 0

omit [IsProbabilityMeasure P] in
theorem Uncorrelated.sublist {xs ys : List (Ω → ℝ)} {s : ℝ} (h : Uncorrelated xs P s) (hs : ys.Sublist xs) : Uncorrelated ys P s :=
  ⟨fun Y hY => h.memLp Y (hs.subset hY), fun Y hY => h.var Y (hs.subset hY), h.uncorr.sublist hs⟩

omit [IsProbabilityMeasure P] in
theorem Uncorrelated.reverse {xs : List (Ω → ℝ)} {s : ℝ} (h : Uncorrelated xs P s) : Uncorrelated xs.reverse P s := by
  refine ⟨fun Y hY => h.memLp Y (by simpa using hY), fun Y hY => h.var Y (by simpa using hY), ?_⟩
  rw [List.pairwise_reverse]
  exact h.uncorr.imp fun h => by rw [covariance_comm, h]

/-- `Σ c_i x_i`. -/
def lin (cs xs : List ℝ) : ℝ := (List.zipWith (· * ·) cs xs).sum

@[simp] theorem lin_cons (c x : ℝ) (cs xs : List ℝ) : lin (c :: cs) (x :: xs) = c * x + lin cs xs := by simp [lin]
@[simp] theorem lin_nil (xs : List ℝ) : lin [] xs = 0 := by simp [lin]
@[simp] theorem lin_nil_right (cs : List ℝ) : lin cs [] = 0 := by simp [lin]

theorem lin_const (m : ℝ) (cs : List ℝ) {xs : List ℝ} (h : ∀ x ∈ xs, x = m) (hl : cs.length ≤ xs.length) : lin cs xs = m * cs.sum := by
  induction cs generalizing xs with
  | nil => simp
  | cons c cs ih =>
    cases xs with
    | nil => simp at hl
    | cons x xs =>
      rw [lin_cons, ih (fun y hy => h y (by simp [hy])) (by simpa using hl), h x (by simp), List.sum_cons]; ring

theorem lin_stats (cs : List ℝ) {xs : List (Ω → ℝ)} {s : ℝ} (h : Uncorrelated xs P s) (hl : cs.length ≤ xs.length) :
    MemLp (fun ω => lin cs (seen xs ω)) 2 P
    ∧ ∫ ω, lin cs (seen xs ω) ∂P = lin cs (xs.map fun Y => ∫ ω, Y ω ∂P)
    ∧ Var[fun ω => lin cs (seen xs ω); P] = s * (cs.map (· ^ 2)).sum
    ∧ ∀ Y : Ω → ℝ, MemLp Y 2 P → (∀ Z ∈ xs, cov[Y, Z; P] = 0) → cov[Y, fun ω => lin cs (seen xs ω); P] = 0 := by
  induction cs generalizing xs with
  | nil => refine ⟨by simp, by simp, by simp only [lin_nil, List.map_nil, List.sum_nil, mul_zero]; exact variance_zero P, fun Y _ _ => by simp⟩
  | cons c cs ih =>
    cases xs with
    | nil => simp at hl
    | cons Z xs =>
      obtain ⟨i1, i2, i3, i4⟩ := ih (h.sublist (List.sublist_cons_self ..)) (by simpa using hl)
      have hZ := h.memLp Z (by simp)
      have hcZ : MemLp (fun ω => c * Z ω) 2 P := hZ.const_mul c
      have e : (fun ω => lin (c :: cs) (seen (Z :: xs) ω)) = fun ω => c * Z ω + lin cs (seen xs ω) := by
        funext ω; simp [seen]
      have hu := List.pairwise_cons.1 h.uncorr
      rw [e]
      refine ⟨hcZ.add i1, ?_, ?_, fun Y hY h0 => ?_⟩
      · rw [integral_add (hcZ.integrable (by norm_num)) (i1.integrable (by norm_num)), integral_const_mul, i2]; simp
      · rw [variance_fun_add hcZ i1, i3, covariance_const_mul_left, i4 Z hZ hu.1, variance_const_mul, h.var Z (by simp)]
        simp only [List.map_cons, List.sum_cons]; ring
      · rw [show (fun ω => c * Z ω + lin cs (seen xs ω)) = (fun ω => c * Z ω) + fun ω => lin cs (seen xs ω) from rfl,
          covariance_add_right hY hcZ i1, covariance_const_mul_right, h0 Z (by simp), i4 Y hY fun W hW => h0 W (by simp [hW])]
        ring

omit [IsProbabilityMeasure P] in
/-- The linear combination of values with the same expectation. -/
theorem lin_mean (cs : List ℝ) {xs : List (Ω → ℝ)} {m : ℝ} (hm : ∀ Y ∈ xs, ∫ ω, Y ω ∂P = m) (hl : cs.length ≤ xs.length) :
    lin cs (xs.map fun Y => ∫ ω, Y ω ∂P) = m * cs.sum :=
  lin_const m cs (by simpa using hm) (by simpa using hl)

theorem mean_eq_lin (xs : List ℝ) : Spec.mean xs = lin (List.replicate xs.length (1 / xs.length : ℝ)) xs := by
  have : ∀ (c : ℝ) (xs : List ℝ), lin (List.replicate xs.length c) xs = c * xs.sum := by
    intro c xs
    induction xs with
    | nil => simp
    | cons x xs ih => rw [List.length_cons, List.replicate_succ, lin_cons, ih, List.sum_cons]; ring
  rw [this, Spec.mean]; ring

/-- Expectation and variance of the mean. -/
theorem mean_stats {xs : List (Ω → ℝ)} {m s : ℝ} (h : Uncorrelated xs P s) (hm : ∀ Y ∈ xs, ∫ ω, Y ω ∂P = m) (hne : xs ≠ []) :
    MemLp (fun ω => Spec.mean (seen xs ω)) 2 P ∧ ∫ ω, Spec.mean (seen xs ω) ∂P = m
    ∧ Var[fun ω => Spec.mean (seen xs ω); P] = s / xs.length := by
  have hn : (xs.length : ℝ) ≠ 0 := by
    have := List.length_pos_iff.2 hne; positivity
  have e : (fun ω => Spec.mean (seen xs ω)) = fun ω => lin (List.replicate xs.length (1 / xs.length : ℝ)) (seen xs ω) := by
    funext ω; rw [mean_eq_lin, seen_length]
  obtain ⟨h1, h2, h3, -⟩ := lin_stats (List.replicate xs.length (1 / xs.length : ℝ)) h (by simp)
  rw [e]
  refine ⟨h1, ?_, ?_⟩
  · rw [h2, lin_mean _ hm (by simp), List.sum_replicate, nsmul_eq_mul]; field_simp
  · rw [h3, List.map_replicate, List.sum_replicate, nsmul_eq_mul]; field_simp

theorem central_two_about (m : ℝ) {xs : List ℝ} (hne : xs ≠ []) :
    Spec.central 2 xs = Spec.about 2 m xs - xs.length * (Spec.mean xs - m) ^ 2 := by
  have hn : (xs.length : ℝ) ≠ 0 := by
    have := List.length_pos_iff.2 hne; positivity
  have h1 : Spec.about 1 m xs = xs.length * (Spec.mean xs - m) := by
    rw [Spec.mean, Spec.about_one]
    field_simp
  rw [Spec.central_eq_about, show Spec.mean xs = m + (Spec.mean xs - m) by ring, Spec.about_two_shift, h1]
  ring

theorem about_stats {xs : List (Ω → ℝ)} {m s : ℝ} (h : Uncorrelated xs P s) (hm : ∀ Y ∈ xs, ∫ ω, Y ω ∂P = m) :
    Integrable (fun ω => Spec.about 2 m (seen xs ω)) P ∧ ∫ ω, Spec.about 2 m (seen xs ω) ∂P = xs.length * s := by
  induction xs with
  | nil => simp [seen]
  | cons Z xs ih =>
    obtain ⟨i1, i2⟩ := ih (h.sublist (List.sublist_cons_self ..)) fun Y hY => hm Y (by simp [hY])
    have hZ := h.memLp Z (by simp)
    have j : Integrable (fun ω => (Z ω - m) ^ 2) P := (hZ.sub (memLp_const m)).integrable_sq
    have e : (fun ω => Spec.about 2 m (seen (Z :: xs) ω)) = fun ω => (Z ω - m) ^ 2 + Spec.about 2 m (seen xs ω) := by
      funext ω; simp [seen, Spec.about]
    have hv := h.var Z (by simp)
    rw [variance_eq_integral hZ.1.aemeasurable, hm Z (by simp)] at hv
    rw [e]
    refine ⟨j.add i1, ?_⟩
    rw [integral_add j i1, i2, hv, List.length_cons]; push_cast; ring

/-- Expectation of the sum of the squared deviations from the mean. -/
theorem central_stats {xs : List (Ω → ℝ)} {m s : ℝ} (h : Uncorrelated xs P s) (hm : ∀ Y ∈ xs, ∫ ω, Y ω ∂P = m) (hne : xs ≠ []) :
    Integrable (fun ω => Spec.central 2 (seen xs ω)) P ∧ ∫ ω, Spec.central 2 (seen xs ω) ∂P = (xs.length - 1) * s := by
  have hn : (xs.length : ℝ) ≠ 0 := by
    have := List.length_pos_iff.2 hne; positivity
  obtain ⟨a1, a2⟩ := about_stats h hm
  obtain ⟨m1, m2, m3⟩ := mean_stats h hm hne
  have j : Integrable (fun ω => (Spec.mean (seen xs ω) - m) ^ 2) P := (m1.sub (memLp_const m)).integrable_sq
  have e : (fun ω => Spec.central 2 (seen xs ω))
      = fun ω => Spec.about 2 m (seen xs ω) - xs.length * (Spec.mean (seen xs ω) - m) ^ 2 := by
    funext ω
    rw [central_two_about m (by intro e; apply hne; simpa [seen] using e), seen_length]
  rw [variance_eq_integral m1.1.aemeasurable, m2] at m3
  rw [e]
  refine ⟨a1.sub (j.const_mul _), ?_⟩
  rw [integral_sub a1 (j.const_mul _), integral_const_mul, a2, m3]
  field_simp

/-- The smallest possible sum of squares of weights with sum 1. -/
theorem sq_weights (cs : List ℝ) (h : cs.sum = 1) : 1 / (cs.length : ℝ) ≤ (cs.map (· ^ 2)).sum := by
  have hn : cs ≠ [] := by rintro rfl; simp at h
  have hn' : (0 : ℝ) < cs.length := by exact_mod_cast List.length_pos_iff.2 hn
  have hc := Spec.central_two_nonneg cs
  rw [central_two_about 0 hn, Spec.mean, h] at hc
  have e : Spec.about 2 0 cs = (cs.map (· ^ 2)).sum := by simp [Spec.about]
  rw [e] at hc
  have : (cs.length : ℝ) * (1 / cs.length - 0) ^ 2 = 1 / cs.length := by field_simp; ring
  linarith

/-! ### Pairs -/

/-- Pairs of random values with expectations `a` and `b`, covariance `c`, and no correlation between coordinates of different pairs. -/
structure UncorrelatedPairs (ps : List (Ω → ℝ × ℝ)) (P : Measure Ω) (a b c : ℝ) : Prop where
  memLp : ∀ Y ∈ ps, MemLp (fun ω => (Y ω).1) 2 P ∧ MemLp (fun ω => (Y ω).2) 2 P
  mean : ∀ Y ∈ ps, ∫ ω, (Y ω).1 ∂P = a ∧ ∫ ω, (Y ω).2 ∂P = b
  cov : ∀ Y ∈ ps, cov[fun ω => (Y ω).1, fun ω => (Y ω).2; P] = c
  uncorr : ps.Pairwise fun Y Z => cov[fun ω => (Y ω).1, fun ω => (Z ω).2; P] = 0 ∧ cov[fun ω => (Z ω).1, fun ω => (Y ω).2; P] = 0

omit [IsProbabilityMeasure P] in
theorem UncorrelatedPairs.sublist {ps qs : List (Ω → ℝ × ℝ)} {a b c : ℝ} (h : UncorrelatedPairs ps P a b c) (hs : qs.Sublist ps) :
    UncorrelatedPairs qs P a b c :=
  ⟨fun Y hY => h.memLp Y (hs.subset hY), fun Y hY => h.mean Y (hs.subset hY), fun Y hY => h.cov Y (hs.subset hY), h.uncorr.sublist hs⟩

/-- Covariance of the sums. -/
theorem sums_stats {ps : List (Ω → ℝ × ℝ)} {a b c : ℝ} (h : UncorrelatedPairs ps P a b c) :
    (MemLp (fun ω => (Spec.xsOf (seen ps ω)).sum) 2 P ∧ MemLp (fun ω => (Spec.ysOf (seen ps ω)).sum) 2 P)
    ∧ (∫ ω, (Spec.xsOf (seen ps ω)).sum ∂P = ps.length * a ∧ ∫ ω, (Spec.ysOf (seen ps ω)).sum ∂P = ps.length * b)
    ∧ cov[fun ω => (Spec.xsOf (seen ps ω)).sum, fun ω => (Spec.ysOf (seen ps ω)).sum; P] = ps.length * c
    ∧ (∀ Y : Ω → ℝ, MemLp Y 2 P → (∀ Z ∈ ps, cov[Y, fun ω => (Z ω).2; P] = 0) → cov[Y, fun ω => (Spec.ysOf (seen ps ω)).sum; P] = 0)
    ∧ (∀ Y : Ω → ℝ, MemLp Y 2 P → (∀ Z ∈ ps, cov[fun ω => (Z ω).1, Y; P] = 0) → cov[fun ω => (Spec.xsOf (seen ps ω)).sum, Y; P] = 0) := by
  induction ps with
  | nil => simp [seen, Spec.xsOf, Spec.ysOf]
  | cons Z ps ih =>
    obtain ⟨⟨m1, m2⟩, ⟨e1, e2⟩, c1, u1, u2⟩ := ih (h.sublist (List.sublist_cons_self ..))
    obtain ⟨z1, z2⟩ := h.memLp Z (by simp)
    have hu := List.pairwise_cons.1 h.uncorr
    have ex : (fun ω => (Spec.xsOf (seen (Z :: ps) ω)).sum) = (fun ω => (Z ω).1) + fun ω => (Spec.xsOf (seen ps ω)).sum := by
      funext ω; simp [seen, Spec.xsOf]
    have ey : (fun ω => (Spec.ysOf (seen (Z :: ps) ω)).sum) = (fun ω => (Z ω).2) + fun ω => (Spec.ysOf (seen ps ω)).sum := by
      funext ω; simp [seen, Spec.ysOf]
    rw [ex, ey]
    refine ⟨⟨z1.add m1, z2.add m2⟩, ⟨?_, ?_⟩, ?_, fun Y hY h0 => ?_, fun Y hY h0 => ?_⟩
    · rw [integral_add' (z1.integrable (by norm_num)) (m1.integrable (by norm_num)), e1, (h.mean Z (by simp)).1, List.length_cons]
      push_cast; ring
    · rw [integral_add' (z2.integrable (by norm_num)) (m2.integrable (by norm_num)), e2, (h.mean Z (by simp)).2, List.length_cons]
      push_cast; ring
    · rw [covariance_add_left z1 m1 (z2.add m2), covariance_add_right z1 z2 m2, covariance_add_right m1 z2 m2, c1,
        h.cov Z (by simp), u1 _ z1 fun W hW => (hu.1 W hW).1, u2 _ z2 fun W hW => (hu.1 W hW).2, List.length_cons]
      push_cast; ring
    · rw [covariance_add_right hY z2 m2, h0 Z (by simp), u1 Y hY fun W hW => h0 W (by simp [hW]), add_zero]
    · rw [covariance_add_left z1 m1 hY, h0 Z (by simp), u2 Y hY fun W hW => h0 W (by simp [hW]), add_zero]

theorem cosum_about (a b : ℝ) {ps : List (ℝ × ℝ)} (hne : ps ≠ []) :
    Spec.cosum ps = Spec.coabout a b ps
      - ((Spec.xsOf ps).sum - ps.length * a) * ((Spec.ysOf ps).sum - ps.length * b) / ps.length := by
  have hn : (ps.length : ℝ) ≠ 0 := by
    have := List.length_pos_iff.2 hne; positivity
  have h1 : Spec.about 1 a (Spec.xsOf ps) = (Spec.xsOf ps).sum - ps.length * a := by
    rw [Spec.about_one, Spec.length_xsOf]
  have h2 : Spec.about 1 b (Spec.ysOf ps) = (Spec.ysOf ps).sum - ps.length * b := by
    rw [Spec.about_one, Spec.length_ysOf]
  rw [Spec.cosum_eq_coabout, show Spec.mean (Spec.xsOf ps) = a + (Spec.mean (Spec.xsOf ps) - a) by ring,
    show Spec.mean (Spec.ysOf ps) = b + (Spec.mean (Spec.ysOf ps) - b) by ring, Spec.coabout_shift, h1, h2, Spec.mean, Spec.mean,
    Spec.length_xsOf, Spec.length_ysOf]
  field_simp
  ring

theorem coabout_stats {ps : List (Ω → ℝ × ℝ)} {a b c : ℝ} (h : UncorrelatedPairs ps P a b c) :
    Integrable (fun ω => Spec.coabout a b (seen ps ω)) P ∧ ∫ ω, Spec.coabout a b (seen ps ω) ∂P = ps.length * c := by
  induction ps with
  | nil => simp [seen]
  | cons Z ps ih =>
    obtain ⟨i1, i2⟩ := ih (h.sublist (List.sublist_cons_self ..))
    obtain ⟨z1, z2⟩ := h.memLp Z (by simp)
    have j : Integrable (fun ω => ((Z ω).1 - a) * ((Z ω).2 - b)) P := (z1.sub (memLp_const a)).integrable_mul (z2.sub (memLp_const b))
    have e : (fun ω => Spec.coabout a b (seen (Z :: ps) ω))
        = fun ω => ((Z ω).1 - a) * ((Z ω).2 - b) + Spec.coabout a b (seen ps ω) := by
      funext ω; simp [seen]
    have hc := h.cov Z (by simp)
    rw [covariance, (h.mean Z (by simp)).1, (h.mean Z (by simp)).2] at hc
    rw [e]
    refine ⟨j.add i1, ?_⟩
    rw [integral_add j i1, i2, hc, List.length_cons]; push_cast; ring

/-- Expectation of the sum of the products of the deviations. -/
theorem cosum_stats {ps : List (Ω → ℝ × ℝ)} {a b c : ℝ} (h : UncorrelatedPairs ps P a b c) (hne : ps ≠ []) :
    Integrable (fun ω => Spec.cosum (seen ps ω)) P ∧ ∫ ω, Spec.cosum (seen ps ω) ∂P = (ps.length - 1) * c := by
  have hn : (ps.length : ℝ) ≠ 0 := by
    have := List.length_pos_iff.2 hne; positivity
  obtain ⟨a1, a2⟩ := coabout_stats h
  obtain ⟨⟨m1, m2⟩, ⟨e1, e2⟩, c1, -⟩ := sums_stats h
  have j : Integrable (fun ω => ((Spec.xsOf (seen ps ω)).sum - ps.length * a) * ((Spec.ysOf (seen ps ω)).sum - ps.length * b)) P :=
    (m1.sub (memLp_const _)).integrable_mul (m2.sub (memLp_const _))
  have e : (fun ω => Spec.cosum (seen ps ω)) = fun ω => Spec.coabout a b (seen ps ω)
      - ((Spec.xsOf (seen ps ω)).sum - ps.length * a) * ((Spec.ysOf (seen ps ω)).sum - ps.length * b) / ps.length := by
    funext ω
    rw [cosum_about a b (by intro e; apply hne; simpa [seen] using e), seen_length]
  rw [covariance, e1, e2] at c1
  rw [e]
  refine ⟨a1.sub (j.div_const _), ?_⟩
  rw [integral_sub a1 (j.div_const _), integral_div, a2, c1]
  field_simp

end Verif.Stochastic
