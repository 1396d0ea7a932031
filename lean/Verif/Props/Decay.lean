import Verif.Proofs.Decay
import Verif.Proofs.Window
/-
C25 - C27 and C56: exponentially weighted filters.
-/
namespace Verif.Props
open Scalar Exact Verif.Decay

variable {ε : ℝ}

/-! ### C25 -/

/-- C25: the closed form. -/
theorem C25_decay_mean {f : ℝ} (h0 : 0 < f) (h1 : f ≤ 1) (ops : List (Op ℝ)) :
    (Mean.run (X.fin f) (finOps ops) : Mean (E ε)).mean
      = X.fin (Spec.ewMean f (sinceClear ops)) := by
  rw [Mean.run_fin, Mean.mean_of h0 h1]

/-- C25: the weights are not negative, the weight of the last value is positive, and they add up to the
divisor. -/
theorem C25_weights {f : ℝ} (h0 : 0 < f) (h1 : f ≤ 1) (n : ℕ) :
    (∀ j : ℕ, 0 ≤ f * (1 - f) ^ j) ∧ 0 < f * (1 - f) ^ 0 ∧ (f < 1 → ∀ j : ℕ, 0 < f * (1 - f) ^ j)
      ∧ ((List.range n).map fun j : ℕ => f * (1 - f) ^ (n - 1 - j)).sum = 1 - (1 - f) ^ n := by
  refine ⟨fun j => mul_nonneg h0.le (pow_nonneg (by linarith) _), by simpa using h0,
    fun h j => mul_pos h0 (pow_pos (by linarith) _), ?_⟩
  rw [← Spec.ewSum_one, Spec.ewSum, List.length_replicate]
  congr 1
  apply List.map_congr_left
  intro i hi
  rw [List.getD_eq_getElem _ _ (by simpa using List.mem_range.1 hi), List.getElem_replicate, mul_one]

/-- C25: bounds, constant streams, factor 1, empty filter. -/
theorem C25_decay_mean_laws {f : ℝ} (h0 : 0 < f) (h1 : f ≤ 1) (ops : List (Op ℝ)) :
    ∃ m : ℝ, (Mean.run (X.fin f) (finOps ops) : Mean (E ε)).mean = X.fin m
      ∧ (∀ a b : ℝ, sinceClear ops ≠ [] → (∀ x ∈ sinceClear ops, a ≤ x ∧ x ≤ b) → a ≤ m ∧ m ≤ b)
      ∧ (∀ c : ℝ, sinceClear ops ≠ [] → (∀ x ∈ sinceClear ops, x = c) → m = c)
      ∧ (∀ hne : sinceClear ops ≠ [], f = 1 → m = (sinceClear ops).getLast hne)
      ∧ (sinceClear ops = [] → m = 0) := by
  refine ⟨_, C25_decay_mean h0 h1 ops, ?_, ?_, ?_, ?_⟩
  · intro a b hne h
    exact ⟨Spec.le_ewMean h0 h1 hne fun x hx => (h x hx).1,
      Spec.ewMean_le h0 h1 hne fun x hx => (h x hx).2⟩
  · intro c hne h
    exact Spec.ewMean_const h0 h1 hne h
  · intro hne hf
    subst hf
    obtain ⟨l, x, hl⟩ : ∃ l x, sinceClear ops = l ++ [x] :=
      ⟨_, _, (List.dropLast_append_getLast hne).symm⟩
    simp only [hl, List.getLast_append_singleton]
    rw [Spec.ewMean, Spec.ewSum_snoc]
    simp
  · intro h
    rw [h, Spec.ewMean]; simp

/-- With factor 1/4: 1, 0, 4 gives (9/64 + 16/16)/(37/64). -/
example : (Mean.run (X.fin (1 / 4)) (finOps [.push 9, .clear, .push 1, .push 0, .push 4])
    : Mean (E ε)).mean = X.fin (73 / 37) := by
  rw [C25_decay_mean (by norm_num) (by norm_num), X.fin_inj]
  have e : sinceClear [.push 9, .clear, .push 1, .push 0, .push 4] = ([1, 0, 4] : List ℝ) := rfl
  rw [e]
  simp [Spec.ewMean, Spec.ewSum, List.range_succ]
  norm_num

/-! ### C26 -/

/-- The value `variance()` should have. -/
noncomputable def Spec_decayVariance (f g : ℝ) (xs : List ℝ) : ℝ :=
  Spec.ewMean g ((Spec.ewDevs f xs).map (· ^ 2))

/-- C26 for `variance()`, as stated: for every history. -/
def C26_Statement (ε : ℝ) : Prop :=
  ∀ f g : ℝ, 0 < f → f ≤ 1 → 0 < g → g ≤ 1 → ∀ ops : List (Op ℝ),
    (Variance.run (X.fin f) (X.fin g) (finOps ops) : Variance (E ε)).variance
      = X.fin (Spec_decayVariance f g (sinceClear ops))

theorem ewDevs_zero_one {f t : ℝ} (h0 : 0 < f) (h1 : f ≤ 1) :
    Spec.ewDevs f [0, t] = [0, (1 - f) / (2 - f) * t] := by
  have hf : (2 : ℝ) - f ≠ 0 := by linarith
  have hf' : (1 - (1 - f) ^ 2 : ℝ) ≠ 0 := by
    have : (1 - (1 - f) ^ 2 : ℝ) = f * (2 - f) := by ring
    rw [this]; exact mul_ne_zero h0.ne' hf
  simp only [Spec.ewDevs, Spec.ewMean, Spec.ewSum, List.length_cons, List.length_nil, List.range_succ,
    List.range_zero, List.nil_append, List.map_append, List.map_cons, List.map_nil, List.cons_append,
    List.take_succ_cons, List.take_zero, List.take_nil, List.sum_cons, List.sum_nil, List.getD_cons_zero,
    List.getD_cons_succ, zero_add, Nat.add_sub_cancel, Nat.sub_self, pow_zero, mul_one, mul_zero,
    add_zero, zero_div, sub_zero, List.cons.injEq, and_true, true_and, Nat.sub_zero]
  rw [show (1 - (1 - f) ^ (1 + 1) : ℝ) = f * (2 - f) by ring]
  field_simp
  ring

/-- C26 is violated in histories with `clear()` (see C27), for all factors below 1. -/
theorem C26_variance_violated : ¬ C26_Statement ε := by
  intro h
  have h' := h (1 / 2) (1 / 2) (by norm_num) (by norm_num) (by norm_num) (by norm_num)
    [.push 0, .clear, .push 0, .push 1]
  have e : sinceClear [.push 0, .clear, .push 0, .push 1] = ([0, 1] : List ℝ) := rfl
  rw [Variance.run_fin (by norm_num) (by norm_num), Variance.variance_of (by norm_num) (by norm_num)
    (length_sinceClear_le _), e, X.fin_inj, Spec_decayVariance, Spec.ewMean,
    ewDevs_zero_one (by norm_num) (by norm_num)] at h'
  simp [pushCount, Spec.ewSum, List.range_succ] at h'
  norm_num at h'

/-- C26, the part that holds: the closed forms when no value was pushed before the last `clear()`.
Missing: histories in which values were pushed before a `clear()`, see `C26_variance_violated` and
`C27_variance_ratio`. -/
theorem C26_decay_moments_partial (hε : 0 ≤ ε) {f g h i : ℝ} (hf : 0 < f ∧ f ≤ 1) (hg : 0 < g ∧ g ≤ 1)
    (hh : 0 < h ∧ h ≤ 1) (hi : 0 < i ∧ i ≤ 1) (ops : List (Op ℝ))
    (hops : pushCount ops = (sinceClear ops).length) :
    let xs := sinceClear ops
    let var := Spec_decayVariance f g xs
    let s : Kurtosis (E ε) := Kurtosis.run (X.fin f) (X.fin g) (X.fin h) (X.fin i) (finOps ops)
    s.mean = X.fin (Spec.ewMean f xs)
      ∧ s.variance = X.fin var
      ∧ s.skewness = X.fin (if ε < var
          then Spec.ewMean h ((Spec.ewDevs f xs).map (· ^ 3)) / Real.sqrt var ^ 3 else 0)
      ∧ s.kurtosis = X.fin (if ε < var
          then Spec.ewMean i ((Spec.ewDevs f xs).map (· ^ 4)) / var ^ 2 else 0) := by
  intro xs var s
  have hs : s = Kurtosis.of f g h i xs.length xs := by
    rw [← hops]; exact Kurtosis.run_fin hf.1 hf.2 g h i ops
  have hvar : (Variance.of f g xs.length xs : Variance (E ε)).variance = X.fin var := by
    rw [Variance.variance_of hg.1 hg.2 (le_refl _)]
    simp only [var, Spec_decayVariance, Spec.ewMean, List.length_map, Spec.length_ewDevs]
  refine ⟨?_, ?_, ?_, ?_⟩
  · rw [hs]; exact Mean.mean_of hf.1 hf.2 xs
  · rw [hs]; exact hvar
  · rw [hs]
    show (Skewness.of f g h xs.length xs : Skewness (E ε)).skewness = _
    have e1 : (Skewness.of f g h xs.length xs : Skewness (E ε)).super.variance = X.fin var := hvar
    have e2 : (Skewness.of f g h xs.length xs : Skewness (E ε)).normalization
        = X.fin (1 - (1 - h) ^ xs.length) := rfl
    have e3 : (Skewness.of f g h xs.length xs : Skewness (E ε)).sumSkewness
        = X.fin (Spec.ewSum h ((Spec.ewDevs f xs).map (· ^ 3))) := rfl
    simp only [Skewness.skewness]
    rw [e1, e2, e3, Exact.ofNat_eq, lt_fin, Exact.eps_eq, lt_fin, Nat.cast_zero]
    by_cases hn : xs.length = 0
    · have : var = 0 := by
        rw [List.length_eq_zero_iff] at hn
        simp [var, Spec_decayVariance, hn, Spec.ewMean]
      rw [hn, this]
      simp
    · have hnorm := Spec.norm_pos hh.1 hh.2 hn
      rw [decide_eq_true hnorm, if_pos rfl]
      by_cases hv : ε < var
      · have hv0 : 0 < var := lt_of_le_of_lt hε hv
        have hsq := Real.sqrt_pos.2 hv0
        rw [decide_eq_true hv, if_pos rfl, if_pos hv, sqrt_fin hv0.le, mul_fin,
          div_fin _ (mul_pos hv0 hsq).ne', div_fin _ hnorm.ne', X.fin_inj, Spec.ewMean,
          List.length_map, Spec.length_ewDevs]
        have : var * Real.sqrt var = Real.sqrt var ^ 3 := by
          nth_rewrite 1 [← Real.mul_self_sqrt hv0.le]; ring
        rw [this]
        field_simp
      · rw [decide_eq_false hv, if_neg hv]; rfl
  · rw [hs]
    have e1 : (Kurtosis.of f g h i xs.length xs : Kurtosis (E ε)).super.variance = X.fin var := hvar
    have e2 : (Kurtosis.of f g h i xs.length xs : Kurtosis (E ε)).normalization
        = X.fin (1 - (1 - i) ^ xs.length) := rfl
    have e3 : (Kurtosis.of f g h i xs.length xs : Kurtosis (E ε)).sumKurtosis
        = X.fin (Spec.ewSum i ((Spec.ewDevs f xs).map (· ^ 4))) := rfl
    simp only [Kurtosis.kurtosis]
    rw [e1, e2, e3, Exact.ofNat_eq, lt_fin, Exact.eps_eq, lt_fin, Nat.cast_zero]
    by_cases hn : xs.length = 0
    · have : var = 0 := by
        rw [List.length_eq_zero_iff] at hn
        simp [var, Spec_decayVariance, hn, Spec.ewMean]
      rw [hn, this]
      simp
    · have hnorm := Spec.norm_pos hi.1 hi.2 hn
      rw [decide_eq_true hnorm, if_pos rfl]
      by_cases hv : ε < var
      · have hv0 : 0 < var := lt_of_le_of_lt hε hv
        rw [decide_eq_true hv, if_pos rfl, if_pos hv, mul_fin,
          div_fin _ (mul_pos hv0 hv0).ne', div_fin _ hnorm.ne', X.fin_inj, Spec.ewMean,
          List.length_map, Spec.length_ewDevs]
        field_simp
      · rw [decide_eq_false hv, if_neg hv]; rfl

/-- Two values, all factors 1/2. -/
example : (Kurtosis.run (X.fin (1 / 2)) (X.fin (1 / 2)) (X.fin (1 / 2)) (X.fin (1 / 2))
    (finOps [.push 0, .push 12]) : Kurtosis (E (1 / 10))).kurtosis = X.fin (3 / 2) := by
  have h := (C26_decay_moments_partial (ε := 1 / 10) (f := 1 / 2) (g := 1 / 2) (h := 1 / 2)
    (i := 1 / 2) (by norm_num) ⟨by norm_num, by norm_num⟩ ⟨by norm_num, by norm_num⟩
    ⟨by norm_num, by norm_num⟩ ⟨by norm_num, by norm_num⟩ [.push 0, .push 12] rfl).2.2.2
  refine h.trans ?_
  have e : sinceClear [.push 0, .push 12] = ([0, 12] : List ℝ) := rfl
  have ed : Spec.ewDevs (1 / 2) [0, 12] = [0, 4] := by
    rw [ewDevs_zero_one (by norm_num) (by norm_num)]; norm_num
  have ev : Spec_decayVariance (1 / 2) (1 / 2) [0, 12] = 32 / 3 := by
    rw [Spec_decayVariance, ed]; simp [Spec.ewMean, Spec.ewSum, List.range_succ]; norm_num
  rw [e, ed, ev, if_pos (by norm_num), X.fin_inj]
  simp [Spec.ewMean, Spec.ewSum, List.range_succ]; norm_num

/-- C26, every history, also with `clear()`: all results are finite numbers, the variance is not negative,
and on constant streams variance, skewness and kurtosis are 0. -/
theorem C26_decay_finite (hε : 0 ≤ ε) {f g h i : ℝ} (hf : 0 < f ∧ f ≤ 1) (hg : 0 < g ∧ g ≤ 1)
    (_hh : 0 < h ∧ h ≤ 1) (hi : 0 < i ∧ i ≤ 1) (ops : List (Op ℝ)) :
    let s : Kurtosis (E ε) := Kurtosis.run (X.fin f) (X.fin g) (X.fin h) (X.fin i) (finOps ops)
    (∃ v sk k : ℝ, s.variance = X.fin v ∧ 0 ≤ v ∧ s.skewness = X.fin sk ∧ s.kurtosis = X.fin k ∧ 0 ≤ k
      ∧ (∀ c : ℝ, (∀ x ∈ sinceClear ops, x = c) → v = 0 ∧ sk = 0 ∧ k = 0)) := by
  intro s
  set xs := sinceClear ops with hxs
  set n := pushCount ops with hn
  have hs : s = Kurtosis.of f g h i n xs := Kurtosis.run_fin hf.1 hf.2 g h i ops
  obtain ⟨v, hv⟩ : ∃ v, v = Spec.ewSum g ((Spec.ewDevs f xs).map (· ^ 2)) / (1 - (1 - g) ^ n) := ⟨_, rfl⟩
  have hvar : (Variance.of f g n xs : Variance (E ε)).variance = X.fin v := by
    rw [hv]; exact Variance.variance_of hg.1 hg.2 (length_sinceClear_le ops)
  have hv0 : 0 ≤ v := by
    rw [hv]
    apply div_nonneg _ (Spec.norm_nonneg hg.1 hg.2 n)
    apply Spec.ewSum_nonneg hg.1 hg.2
    intro x hx
    obtain ⟨d, _, rfl⟩ := List.mem_map.1 hx
    positivity
  have hconst : ∀ c : ℝ, (∀ x ∈ xs, x = c) → v = 0 := by
    intro c hc
    have hz : ∀ y ∈ (Spec.ewDevs f xs).map (· ^ 2), y = 0 := by
      intro y hy
      obtain ⟨d, hd, rfl⟩ := List.mem_map.1 hy
      rw [Spec.ewDevs_const hf.1 hf.2 hc d hd]; norm_num
    have := Spec.ewSum_le hg.1 hg.2 (fun y hy => (hz y hy).le)
    have := Spec.le_ewSum hg.1 hg.2 (fun y hy => (hz y hy).ge)
    have e : Spec.ewSum g ((Spec.ewDevs f xs).map (· ^ 2)) = 0 := by linarith
    rw [hv, e, zero_div]
  obtain ⟨sk, hsk, hskc⟩ : ∃ sk : ℝ, s.skewness = X.fin sk ∧ (v = 0 → sk = 0) := by
    rw [hs]
    have e1 : (Skewness.of f g h n xs : Skewness (E ε)).super.variance = X.fin v := hvar
    have e2 : (Skewness.of f g h n xs : Skewness (E ε)).normalization
        = X.fin (1 - (1 - h) ^ n) := rfl
    have e3 : (Skewness.of f g h n xs : Skewness (E ε)).sumSkewness
        = X.fin (Spec.ewSum h ((Spec.ewDevs f xs).map (· ^ 3))) := rfl
    show ∃ sk : ℝ, (Skewness.of f g h n xs : Skewness (E ε)).skewness = X.fin sk ∧ _
    simp only [Skewness.skewness]
    rw [e1, e2, e3, Exact.ofNat_eq, lt_fin, Exact.eps_eq, lt_fin, Nat.cast_zero]
    by_cases hp : 0 < 1 - (1 - h) ^ n
    · rw [decide_eq_true hp, if_pos rfl]
      by_cases hv1 : ε < v
      · have hvp : 0 < v := lt_of_le_of_lt hε hv1
        have hsq := Real.sqrt_pos.2 hvp
        rw [decide_eq_true hv1, if_pos rfl, sqrt_fin hv0, mul_fin, div_fin _ (mul_pos hvp hsq).ne',
          div_fin _ hp.ne']
        exact ⟨_, rfl, fun h => absurd h hvp.ne'⟩
      · rw [decide_eq_false hv1]
        exact ⟨_, rfl, fun _ => rfl⟩
    · rw [decide_eq_false hp]
      exact ⟨_, rfl, fun _ => rfl⟩
  obtain ⟨k, hk, hk0, hkc⟩ : ∃ k : ℝ, s.kurtosis = X.fin k ∧ 0 ≤ k ∧ (v = 0 → k = 0) := by
    rw [hs]
    have e1 : (Kurtosis.of f g h i n xs : Kurtosis (E ε)).super.variance = X.fin v := hvar
    have e2 : (Kurtosis.of f g h i n xs : Kurtosis (E ε)).normalization
        = X.fin (1 - (1 - i) ^ n) := rfl
    have e3 : (Kurtosis.of f g h i n xs : Kurtosis (E ε)).sumKurtosis
        = X.fin (Spec.ewSum i ((Spec.ewDevs f xs).map (· ^ 4))) := rfl
    simp only [Kurtosis.kurtosis]
    rw [e1, e2, e3, Exact.ofNat_eq, lt_fin, Exact.eps_eq, lt_fin, Nat.cast_zero]
    by_cases hp : 0 < 1 - (1 - i) ^ n
    · rw [decide_eq_true hp, if_pos rfl]
      by_cases hv1 : ε < v
      · have hvp : 0 < v := lt_of_le_of_lt hε hv1
        rw [decide_eq_true hv1, if_pos rfl, mul_fin, div_fin _ (mul_pos hvp hvp).ne',
          div_fin _ hp.ne']
        refine ⟨_, rfl, ?_, fun h => absurd h hvp.ne'⟩
        refine div_nonneg (div_nonneg ?_ (mul_pos hvp hvp).le) hp.le
        apply Spec.ewSum_nonneg hi.1 hi.2
        intro x hx
        obtain ⟨d, _, rfl⟩ := List.mem_map.1 hx
        positivity
      · rw [decide_eq_false hv1]
        exact ⟨_, rfl, le_refl _, fun _ => rfl⟩
    · rw [decide_eq_false hp]
      exact ⟨_, rfl, le_refl _, fun _ => rfl⟩
  refine ⟨v, sk, k, ?_, hv0, hsk, hk, hk0, fun c hc => ?_⟩
  · rw [hs]; exact hvar
  · have := hconst c hc
    exact ⟨this, hskc this, hkc this⟩

/-! ### C27 -/

/-- C27 for `mean()`: any arithmetic, every factor.  The mean filter is restored completely. -/
theorem C27_clear_mean {α : Type} [Scalar α] (f : α) (pre post : List (Op α)) :
    (Mean.run f (pre ++ .clear :: post) : Mean α) = Mean.run f post := by
  have h : ∀ ops : List (Op α), (Mean.run f ops : Mean α).clear = Mean.init f := by
    intro ops
    have := (runOps_eq_inv (fun s : Mean α => s.meanFactor = f) (Mean.init f) Mean.push Mean.clear rfl
      (fun s x hs => hs) (fun s hs => by simp [Mean.clear, Mean.init, hs]) ops).2
    have h2 : (Mean.run f ops : Mean α).meanFactor = f := this
    simp [Mean.clear, Mean.init, h2]
  show runOps _ _ _ _ = runOps _ _ _ _
  rw [runOps_append]
  show runOps (Mean.clear (Mean.run f pre)) _ _ _ = _
  rw [h]

/-- C27 for variance, skewness and kurtosis, as stated. -/
def C27_Statement (ε : ℝ) : Prop :=
  ∀ f g h i : ℝ, 0 < f ∧ f ≤ 1 → 0 < g ∧ g ≤ 1 → 0 < h ∧ h ≤ 1 → 0 < i ∧ i ≤ 1 →
    ∀ pre post : List (Op ℝ),
      let s : Kurtosis (E ε) :=
        Kurtosis.run (X.fin f) (X.fin g) (X.fin h) (X.fin i) (finOps (pre ++ .clear :: post))
      let s' : Kurtosis (E ε) :=
        Kurtosis.run (X.fin f) (X.fin g) (X.fin h) (X.fin i) (finOps post)
      s.variance = s'.variance ∧ s.skewness = s'.skewness ∧ s.kurtosis = s'.kurtosis

/-- The exact relation between a cleared filter and a new one: `clear()` leaves the count of all values
ever pushed in the normalisation of the variance. -/
theorem C27_variance_ratio {f g : ℝ} (hf : 0 < f ∧ f ≤ 1) (hg : 0 < g ∧ g ≤ 1)
    (pre post : List (Op ℝ)) :
    ∃ v v' : ℝ,
      (Variance.run (X.fin f) (X.fin g) (finOps (pre ++ .clear :: post)) : Variance (E ε)).variance
        = X.fin v
      ∧ (Variance.run (X.fin f) (X.fin g) (finOps post) : Variance (E ε)).variance = X.fin v'
      ∧ v * (1 - (1 - g) ^ (pushCount pre + pushCount post)) = v' * (1 - (1 - g) ^ pushCount post)
      ∧ v ≤ v' := by
  rw [Variance.run_fin hf.1 hf.2, Variance.run_fin hf.1 hf.2,
    Variance.variance_of hg.1 hg.2 (length_sinceClear_le _),
    Variance.variance_of hg.1 hg.2 (length_sinceClear_le _)]
  have e1 : sinceClear (pre ++ .clear :: post) = sinceClear post := sinceClear_clear_append _ _
  have e2 : pushCount (pre ++ .clear :: post) = pushCount pre + pushCount post := by
    rw [pushCount_append]; rfl
  refine ⟨_, _, rfl, rfl, ?_⟩
  rw [e1, e2]
  set S := Spec.ewSum g ((Spec.ewDevs f (sinceClear post)).map (· ^ 2)) with hS
  have hS0 : 0 ≤ S := by
    apply Spec.ewSum_nonneg hg.1 hg.2
    intro x hx
    obtain ⟨d, _, rfl⟩ := List.mem_map.1 hx
    positivity
  by_cases hp : pushCount post = 0
  · have hnil : sinceClear post = [] := by
      have := length_sinceClear_le post
      rw [hp] at this
      exact List.length_eq_zero_iff.1 (by omega)
    have : S = 0 := by rw [hS, hnil]; simp
    simp [this]
  · have p1 := Spec.norm_pos hg.1 hg.2 hp
    have p2 := Spec.norm_pos hg.1 hg.2 (n := pushCount pre + pushCount post) (by omega)
    refine ⟨by field_simp, ?_⟩
    apply div_le_div_of_nonneg_left hS0 p1
    have : (1 - g) ^ (pushCount pre + pushCount post) ≤ (1 - g) ^ pushCount post :=
      pow_le_pow_of_le_one (by linarith [hg.2]) (by linarith [hg.1]) (by omega)
    linarith

/-- C27 is violated for variance, whatever the factors in (0,1): push 0, clear, push 0, push 1. -/
theorem C27_variance_violated {f g : ℝ} (hf : 0 < f ∧ f < 1) (hg : 0 < g ∧ g < 1) :
    (Variance.run (X.fin f) (X.fin g) (finOps [.push 0, .clear, .push 0, .push 1])
        : Variance (E ε)).variance
      ≠ (Variance.run (X.fin f) (X.fin g) (finOps [.push 0, .push 1]) : Variance (E ε)).variance := by
  rw [Variance.run_fin hf.1 hf.2.le, Variance.run_fin hf.1 hf.2.le,
    Variance.variance_of hg.1 hg.2.le (length_sinceClear_le _),
    Variance.variance_of hg.1 hg.2.le (length_sinceClear_le _)]
  have e1 : sinceClear [.push 0, .clear, .push 0, .push 1] = ([0, 1] : List ℝ) := rfl
  have e2 : sinceClear [.push 0, .push 1] = ([0, 1] : List ℝ) := rfl
  have e3 : pushCount ([.push 0, .clear, .push 0, .push 1] : List (Op ℝ)) = 3 := rfl
  have e4 : pushCount ([.push 0, .push 1] : List (Op ℝ)) = 2 := rfl
  rw [e1, e2, e3, e4, ewDevs_zero_one hf.1 hf.2.le, Ne, X.fin_inj]
  have hd : (0 : ℝ) < (1 - f) / (2 - f) * 1 := by
    rw [mul_one]; exact div_pos (by linarith [hf.2]) (by linarith [hf.2])
  have hS : 0 < Spec.ewSum g (List.map (fun x => x ^ 2) [0, (1 - f) / (2 - f) * 1]) := by
    simp only [Spec.ewSum, List.map_cons, List.map_nil, List.length_cons, List.length_nil,
      List.range_succ, List.range_zero, List.nil_append, List.cons_append, List.sum_cons, List.sum_nil,
      List.getD_cons_zero, List.getD_cons_succ, zero_add, Nat.add_sub_cancel, Nat.sub_self, pow_zero,
      mul_one, add_zero]
    rw [mul_one] at hd
    have := mul_pos hg.1 (pow_pos hd 2)
    simp only [ne_eq, OfNat.ofNat_ne_zero, not_false_eq_true, zero_pow, mul_zero, zero_add]
    exact this
  have n2 := Spec.norm_pos hg.1 hg.2.le (n := 2) (by norm_num)
  have n3 := Spec.norm_pos hg.1 hg.2.le (n := 3) (by norm_num)
  intro h
  rw [div_eq_div_iff n3.ne' n2.ne'] at h
  have h5 := mul_left_cancel₀ hS.ne' h
  have : g * (1 - g) ^ 2 = 0 := by linarith [h5, show (1 - g) ^ 2 - (1 - g) ^ 3 = g * (1 - g) ^ 2 by ring]
  have : 0 < g * (1 - g) ^ 2 := mul_pos hg.1 (pow_pos (by linarith [hg.2]) 2)
  linarith

/-- All factors 1/2; push 0, clear, push 0, push 12. -/
noncomputable def cleared (ε : ℝ) : Kurtosis (E ε) :=
  Kurtosis.run (X.fin (1 / 2)) (X.fin (1 / 2)) (X.fin (1 / 2)) (X.fin (1 / 2))
    (finOps ([.push 0] ++ .clear :: [.push 0, .push 12]))

/-- All factors 1/2; push 0, push 12. -/
noncomputable def fresh (ε : ℝ) : Kurtosis (E ε) :=
  Kurtosis.run (X.fin (1 / 2)) (X.fin (1 / 2)) (X.fin (1 / 2)) (X.fin (1 / 2))
    (finOps [.push 0, .push 12])

/-- C27 is violated for variance, skewness and kurtosis: each of the three conclusions fails in the
history push 0, clear, push 0, push 12 with all factors 1/2. -/
theorem C27_clear_violated (hε1 : ε < 1) :
    ((cleared ε).variance ≠ (fresh ε).variance ∧ (cleared ε).skewness ≠ (fresh ε).skewness
      ∧ (cleared ε).kurtosis ≠ (fresh ε).kurtosis)
    ∧ ¬ C27_Statement ε := by
  have ed : Spec.ewDevs (1 / 2) [0, 12] = [0, 4] := by
    rw [ewDevs_zero_one (by norm_num) (by norm_num)]; norm_num
  have key : ∀ n : ℕ, 2 ≤ n → ∀ N : ℝ, N = 1 - (1 - 1 / 2) ^ n →
      let s : Kurtosis (E ε) := Kurtosis.of (1 / 2) (1 / 2) (1 / 2) (1 / 2) n [0, 12]
      s.variance = X.fin (8 / N) ∧ s.skewness = X.fin (4 / Real.sqrt (8 / N))
        ∧ s.kurtosis = X.fin (2 * N) := by
    intro n hn N hN s
    have hN0 : 0 < N := by rw [hN]; exact Spec.norm_pos (by norm_num) (by norm_num) (by omega)
    have hN1 : N ≤ 1 := by
      have : (0 : ℝ) ≤ (1 - 1 / 2) ^ n := by positivity
      rw [hN]; linarith
    have h8 : 8 ≤ 8 / N := by rw [le_div_iff₀ hN0]; linarith
    have hsq := Real.sqrt_pos.2 (show 0 < 8 / N by linarith)
    have hvar : (Variance.of (1 / 2) (1 / 2) n [0, 12] : Variance (E ε)).variance = X.fin (8 / N) := by
      rw [Variance.variance_of (by norm_num) (by norm_num) (by simpa using hn), ed, ← hN, X.fin_inj]
      simp [Spec.ewSum, List.range_succ]; norm_num
    refine ⟨hvar, ?_, ?_⟩
    · have e1 : (Skewness.of (1 / 2) (1 / 2) (1 / 2) n [0, 12] : Skewness (E ε)).super.variance
          = X.fin (8 / N) := hvar
      have e2 : (Skewness.of (1 / 2) (1 / 2) (1 / 2) n [0, 12] : Skewness (E ε)).normalization
          = X.fin N := by rw [hN]; rfl
      have e3 : (Skewness.of (1 / 2) (1 / 2) (1 / 2) n [0, 12] : Skewness (E ε)).sumSkewness
          = X.fin 32 := by
        simp only [Skewness.of, ed, X.fin_inj]
        simp [Spec.ewSum, List.range_succ]; norm_num
      show (Skewness.of (1 / 2) (1 / 2) (1 / 2) n [0, 12] : Skewness (E ε)).skewness = _
      simp only [Skewness.skewness]
      rw [e1, e2, e3, Exact.ofNat_eq, lt_fin, Exact.eps_eq, lt_fin, Nat.cast_zero,
        decide_eq_true hN0, if_pos rfl, decide_eq_true (show ε < 8 / N by linarith), if_pos rfl,
        sqrt_fin (by linarith), mul_fin, div_fin _ (mul_pos (by linarith) hsq).ne', div_fin _ hN0.ne',
        X.fin_inj]
      field_simp
      norm_num
    · have e1 : (Kurtosis.of (1 / 2) (1 / 2) (1 / 2) (1 / 2) n [0, 12] : Kurtosis (E ε)).super.variance
          = X.fin (8 / N) := hvar
      have e2 : (Kurtosis.of (1 / 2) (1 / 2) (1 / 2) (1 / 2) n [0, 12] : Kurtosis (E ε)).normalization
          = X.fin N := by rw [hN]; rfl
      have e3 : (Kurtosis.of (1 / 2) (1 / 2) (1 / 2) (1 / 2) n [0, 12] : Kurtosis (E ε)).sumKurtosis
          = X.fin 128 := by
        simp only [Kurtosis.of, ed, X.fin_inj]
        simp [Spec.ewSum, List.range_succ]; norm_num
      show (Kurtosis.of (1 / 2) (1 / 2) (1 / 2) (1 / 2) n [0, 12] : Kurtosis (E ε)).kurtosis = _
      simp only [Kurtosis.kurtosis]
      rw [e1, e2, e3, Exact.ofNat_eq, lt_fin, Exact.eps_eq, lt_fin, Nat.cast_zero,
        decide_eq_true hN0, if_pos rfl, decide_eq_true (show ε < 8 / N by linarith), if_pos rfl,
        mul_fin, div_fin _ (mul_pos (by linarith) (by linarith)).ne', div_fin _ hN0.ne',
        X.fin_inj]
      field_simp
      norm_num
  have k3 := key 3 (by norm_num) (7 / 8) (by norm_num)
  have k2 := key 2 (by norm_num) (3 / 4) (by norm_num)
  have r3 : cleared ε = Kurtosis.of (1 / 2) (1 / 2) (1 / 2) (1 / 2) 3 [0, 12] :=
    Kurtosis.run_fin (by norm_num) (by norm_num) _ _ _ _
  have r2 : fresh ε = Kurtosis.of (1 / 2) (1 / 2) (1 / 2) (1 / 2) 2 [0, 12] :=
    Kurtosis.run_fin (by norm_num) (by norm_num) _ _ _ _
  have main : (cleared ε).variance ≠ (fresh ε).variance ∧ (cleared ε).skewness ≠ (fresh ε).skewness
      ∧ (cleared ε).kurtosis ≠ (fresh ε).kurtosis := by
    rw [r3, r2, k3.1, k3.2.1, k3.2.2, k2.1, k2.2.1, k2.2.2, Ne, Ne, Ne, X.fin_inj, X.fin_inj, X.fin_inj]
    refine ⟨by norm_num, ?_, by norm_num⟩
    intro h
    have p3 := Real.sqrt_pos.2 (show (0 : ℝ) < 8 / (7 / 8) by norm_num)
    have p2 := Real.sqrt_pos.2 (show (0 : ℝ) < 8 / (3 / 4) by norm_num)
    rw [div_eq_div_iff p3.ne' p2.ne'] at h
    have h' := mul_left_cancel₀ (show (4 : ℝ) ≠ 0 by norm_num) h
    have := (Real.sqrt_inj (by norm_num) (by norm_num)).1 h'
    norm_num at this
  refine ⟨main, fun h => ?_⟩
  have := h (1 / 2) (1 / 2) (1 / 2) (1 / 2) ⟨by norm_num, by norm_num⟩ ⟨by norm_num, by norm_num⟩
    ⟨by norm_num, by norm_num⟩ ⟨by norm_num, by norm_num⟩ [.push 0] [.push 0, .push 12]
  exact main.1 this.1

/-- Every filter contains the mean filter of the same history, in any arithmetic. -/
theorem kurtosis_super {α : Type} [Scalar α] (f g h i : α) (ops : List (Op α)) :
    (Kurtosis.run f g h i ops : Kurtosis α).super.super.super = Mean.run f ops := by
  have H : ∀ s : Kurtosis α, (runOps s Kurtosis.push Kurtosis.clear ops).super.super.super
      = runOps s.super.super.super Mean.push Mean.clear ops := by
    induction ops with
    | nil => intro s; rfl
    | cons op ops ih =>
      intro s
      cases op with
      | push x => exact ih (s.push x)
      | clear => exact ih s.clear
  exact H _

/-- C27, the part that holds for the variance, skewness and kurtosis filters, in any arithmetic: `mean()`
is restored.  Missing: the other three results (violated; for the exact relation see
`C27_variance_ratio`). -/
theorem C27_clear_partial {α : Type} [Scalar α] (f g h i : α) (pre post : List (Op α)) :
    (Kurtosis.run f g h i (pre ++ .clear :: post) : Kurtosis α).mean
      = (Kurtosis.run f g h i post : Kurtosis α).mean := by
  show Mean.mean (Kurtosis.super _).super.super = Mean.mean (Kurtosis.super _).super.super
  rw [kurtosis_super, kurtosis_super, C27_clear_mean]

/-! ### C56 -/

/-- C56, any arithmetic: `moment::exponential<T, Ratio>` is the decay mean with factor `num / den`. -/
theorem C56_exponential {α : Type} [Scalar α] (num : Int) (den : Nat) (ops : List (Op α)) :
    (Exponential.run num den ops : Exponential α).value
      = (Mean.run (ofInt num / ofNat den) ops : Mean α).mean := by
  have h : ∀ (s : Exponential α), (runOps s Exponential.push Exponential.clear ops).super
      = runOps s.super Mean.push Mean.clear ops := by
    induction ops with
    | nil => intro s; rfl
    | cons op ops ih =>
      intro s
      cases op with
      | push x => exact ih (s.push x)
      | clear => exact ih s.clear
  show (Exponential.run num den ops : Exponential α).super.mean = _
  rw [Exponential.run, h]
  rfl

/-- C56, exact arithmetic: the exponentially weighted mean with factor `num / den`. -/
theorem C56_exponential_exact {num : Int} {den : Nat} (h0 : 0 < num) (h1 : num ≤ den)
    (ops : List (Op ℝ)) :
    (Exponential.run num den (finOps ops) : Exponential (E ε)).value
      = X.fin (Spec.ewMean (num / den) (sinceClear ops)) := by
  have hd : (0 : ℝ) < den := by
    have : (0 : ℤ) < den := lt_of_lt_of_le h0 h1
    exact_mod_cast this
  rw [C56_exponential, Exact.ofInt_eq, Exact.ofNat_eq, div_fin _ hd.ne']
  apply C25_decay_mean
  · exact div_pos (by exact_mod_cast h0) hd
  · rw [div_le_one hd]; exact_mod_cast h1

example : (Exponential.run 1 4 (finOps [.push 1, .push 0, .push 4]) : Exponential (E ε)).value
    = X.fin (73 / 37) := by
  rw [C56_exponential_exact (by norm_num) (by norm_num), X.fin_inj]
  have e : sinceClear [.push 1, .push 0, .push 4] = ([1, 0, 4] : List ℝ) := rfl
  rw [e]
  simp [Spec.ewMean, Spec.ewSum, List.range_succ]
  norm_num

/-- C56: `moment::arithmetic` and `moment::arithmetic_variance` have the mean and variance of the last `N`
values. -/
theorem C56_arithmetic {N : ℕ} (hN : 1 ≤ N) (ops : List (Op ℝ)) :
    (∃ s : Window.Arithmetic N (E ε), Window.Mean.run (finOps ops) = some s
      ∧ s.getMean = X.fin (Spec.mean (Spec.lastN N (sinceClear ops))))
    ∧ (∃ s : Window.ArithmeticVariance N (E ε), Window.Variance.run (finOps ops) = some s
      ∧ s.getMean = X.fin (Spec.mean (Spec.lastN N (sinceClear ops)))) :=
  ⟨⟨_, Window.Mean.run_fin hN ops, rfl⟩, ⟨_, Window.Variance.run_fin hN ops, rfl⟩⟩

end Verif.Props
