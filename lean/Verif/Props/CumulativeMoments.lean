import Verif.Proofs.Cumulative
/-
C01 - C05, C58: the cumulative moment filters compute the textbook statistics of the values pushed since
the last clear (exact arithmetic; `E ε` are the extended reals, `ε` is the machine epsilon of `T`).
-/
namespace Verif.Props
open Scalar Exact Verif.Cumulative

variable {w : Nat} {ε : ℝ}

/-- The history used in the examples: a first data set, `clear`, then the values 1, 2, 6. -/
def demo : List (Op ℝ) := [.push 100, .push 7, .clear, .push 1, .push 2, .push 6]

theorem sinceClear_demo : sinceClear demo = [1, 2, 6] := rfl

/-! ### C01 -/

/-- C01: `mean()`, `size()`, `empty()` and `unbiased_mean()` of cumulative::moment. -/
theorem C01_mean (ops : List (Op ℝ)) (h : (sinceClear ops).length < 2 ^ w) :
    let s : Mean w (E ε) := Mean.run (finOps ops)
    let xs := sinceClear ops
    s.getMean = X.fin (Spec.mean xs)
    ∧ s.size.toNat = xs.length
    ∧ (s.empty = true ↔ xs = [])
    ∧ (2 ≤ xs.length → s.unbiasedMean = X.fin (xs.sum / (xs.length - 1))) := by
  intro s xs
  have hs : s = _ := Mean.run_fin ops h
  rw [hs]
  refine ⟨rfl, toNat_ofNat_lt h, ?_, ?_⟩
  · simp only [Mean.empty, Mean.size, ofNat_beq_zero h]
    simp [xs]
  · intro h2
    have h2' : 2 ≤ (sinceClear ops).length := h2
    have hd : ((sinceClear ops).length : ℝ) - 1 ≠ 0 := by
      have : (2 : ℝ) ≤ (sinceClear ops).length := by exact_mod_cast h2'
      linarith
    simp only [Mean.unbiasedMean]
    rw [ofNat_sub_one (by omega), ofSize_exact h, ofSize_exact (by omega), mul_fin,
      Nat.cast_sub (by omega), Nat.cast_one, div_fin _ hd, ← Spec.sum_eq_mean_mul]

example : (Mean.run (finOps demo) : Mean 64 (E ε)).getMean = X.fin 3 := by
  have := (C01_mean (w := 64) (ε := ε) demo (by rw [sinceClear_demo]; simp)).1
  rw [this, sinceClear_demo]; simp [Spec.mean]; norm_num

/-- C01: the same for the mean part of the variance, skewness and kurtosis filters, in any arithmetic:
they are exactly the mean filter of the same history. -/
theorem C01_mean_inherited {α : Type} [Scalar α] (ops : List (Op α)) :
    let m : Mean w α := Mean.run ops
    ((Variance.run ops : Variance w α).getMean = m.getMean
      ∧ (Skewness.run ops : Skewness w α).getMean = m.getMean
      ∧ (Kurtosis.run ops : Kurtosis w α).getMean = m.getMean)
    ∧ ((Variance.run ops : Variance w α).size = m.size
      ∧ (Skewness.run ops : Skewness w α).size = m.size
      ∧ (Kurtosis.run ops : Kurtosis w α).size = m.size)
    ∧ ((Variance.run ops : Variance w α).unbiasedMean = m.unbiasedMean
      ∧ (Skewness.run ops : Skewness w α).unbiasedMean = m.unbiasedMean
      ∧ (Kurtosis.run ops : Kurtosis w α).unbiasedMean = m.unbiasedMean)
    ∧ ((Variance.run ops : Variance w α).empty = m.empty
      ∧ (Skewness.run ops : Skewness w α).empty = m.empty
      ∧ (Kurtosis.run ops : Kurtosis w α).empty = m.empty) := by
  simp only [Variance.getMean, Skewness.getMean, Kurtosis.getMean, Variance.size, Skewness.size,
    Kurtosis.size, Variance.unbiasedMean, Skewness.unbiasedMean, Kurtosis.unbiasedMean,
    Variance.empty, Skewness.empty, Kurtosis.empty, Kurtosis.run_super, Skewness.run_super,
    Variance.run_super, and_self]

/-! ### C02 -/

/-- C02: `variance()` and `unbiased_variance()`. -/
theorem C02_variance (ops : List (Op ℝ)) (h : (sinceClear ops).length < 2 ^ w) :
    let s : Variance w (E ε) := Variance.run (finOps ops)
    let xs := sinceClear ops
    (1 ≤ xs.length →
      s.variance = X.fin (Spec.variance xs)
      ∧ 0 ≤ Spec.variance xs
      ∧ (s.variance = X.fin 0 ↔ ∀ x ∈ xs, ∀ y ∈ xs, x = y))
    ∧ (2 ≤ xs.length →
      s.unbiasedVariance = X.fin (Spec.sampleVariance xs)
      ∧ 0 ≤ Spec.sampleVariance xs
      ∧ (s.unbiasedVariance = X.fin 0 ↔ ∀ x ∈ xs, ∀ y ∈ xs, x = y)) := by
  intro s xs
  have hs : s = _ := Variance.run_fin ops h
  have hnn := Spec.central_two_nonneg xs
  constructor
  · intro h1
    have hp : (0 : ℝ) < xs.length := by exact_mod_cast h1
    have e : s.variance = X.fin (Spec.variance xs) := by
      rw [hs]
      simp only [Variance.variance]
      rw [ofSize_exact h, div_fin _ hp.ne']; rfl
    rw [e]
    refine ⟨rfl, div_nonneg hnn hp.le, ?_⟩
    rw [X.fin_inj, Spec.variance, div_eq_zero_iff, or_iff_left hp.ne', Spec.central_two_eq_zero]
  · intro h2
    have h2' : 2 ≤ (sinceClear ops).length := h2
    have hp : (0 : ℝ) < xs.length - 1 := by
      have : (2 : ℝ) ≤ xs.length := by exact_mod_cast h2
      linarith
    have e : s.unbiasedVariance = X.fin (Spec.sampleVariance xs) := by
      rw [hs]
      simp only [Variance.unbiasedVariance]
      rw [ofNat_sub_one (by omega), ofSize_exact (by omega), Nat.cast_sub (by omega), Nat.cast_one,
        div_fin _ hp.ne']; rfl
    rw [e]
    refine ⟨rfl, div_nonneg hnn hp.le, ?_⟩
    rw [X.fin_inj, Spec.sampleVariance, div_eq_zero_iff, or_iff_left hp.ne',
      Spec.central_two_eq_zero]

example : (Variance.run (finOps demo) : Variance 64 (E ε)).variance = X.fin (14 / 3)
    ∧ (Variance.run (finOps demo) : Variance 64 (E ε)).unbiasedVariance = X.fin 7 := by
  have := C02_variance (w := 64) (ε := ε) demo (by rw [sinceClear_demo]; simp)
  rw [(this.1 (by rw [sinceClear_demo]; simp)).1, (this.2 (by rw [sinceClear_demo]; simp)).1,
    sinceClear_demo]
  simp [Spec.variance, Spec.sampleVariance, Spec.central, Spec.mean]; norm_num

/-- C02: the skewness and kurtosis filters inherit the variance of the same history, in any arithmetic. -/
theorem C02_variance_inherited {α : Type} [Scalar α] (ops : List (Op α)) :
    let v : Variance w α := Variance.run ops
    ((Skewness.run ops : Skewness w α).variance = v.variance
      ∧ (Kurtosis.run ops : Kurtosis w α).variance = v.variance)
    ∧ ((Skewness.run ops : Skewness w α).unbiasedVariance = v.unbiasedVariance
      ∧ (Kurtosis.run ops : Kurtosis w α).unbiasedVariance = v.unbiasedVariance) := by
  simp only [Skewness.variance, Kurtosis.variance, Skewness.unbiasedVariance,
    Kurtosis.unbiasedVariance, Kurtosis.run_super, Skewness.run_super, and_self]

/-! ### C03 -/

/-- C03 as stated: the sample skewness of all data sets for which it is numerically defined
(`|M3| ≥ ε`), 0 otherwise. -/
def C03_Statement (w : Nat) (ε : ℝ) : Prop :=
  ∀ ops : List (Op ℝ), (sinceClear ops).length < 2 ^ w →
    (Skewness.run (finOps ops) : Skewness w (E ε)).skewness
      = X.fin (if |Spec.central 3 (sinceClear ops)| < ε then 0 else Spec.skewness (sinceClear ops))

/-- `sqrt(n) M3 / M2^(3/2)`, as the code computes it, is the textbook expression. -/
theorem skewness_alt (n m2 m3 : ℝ) (hn : 0 < n) (h2 : 0 < m2) :
    Real.sqrt n * m3 / (Real.sqrt m2 * m2) = m3 / n / Real.sqrt (m2 / n) ^ 3 := by
  have e1 : Real.sqrt n ^ 2 = n := Real.sq_sqrt hn.le
  have e2 : Real.sqrt m2 ^ 2 = m2 := Real.sq_sqrt h2.le
  have p1 : 0 < Real.sqrt n := Real.sqrt_pos.2 hn
  have p2 : 0 < Real.sqrt m2 := Real.sqrt_pos.2 h2
  rw [Real.sqrt_div h2.le]
  generalize Real.sqrt n = a at *
  generalize Real.sqrt m2 = b at *
  subst e1 e2
  field_simp

/-- If all values are equal the third central sum is zero. -/
theorem central_three_of_two {xs : List ℝ} (h : Spec.central 2 xs = 0) : Spec.central 3 xs = 0 := by
  rw [Spec.central_eq_about, Spec.about_two_eq_zero] at h
  rw [Spec.central, List.map_congr_left (g := fun _ => (0 : ℝ)) (fun x hx => by rw [h x hx]; ring)]
  simp

theorem central_four_of_two {xs : List ℝ} (h : Spec.central 2 xs = 0) : Spec.central 4 xs = 0 := by
  rw [Spec.central_eq_about, Spec.about_two_eq_zero] at h
  rw [Spec.central, List.map_congr_left (g := fun _ => (0 : ℝ)) (fun x hx => by rw [h x hx]; ring)]
  simp

/-- The exact result of `skewness()` for every history. -/
theorem skewness_result (hε : 0 < ε) (ops : List (Op ℝ)) (h : (sinceClear ops).length < 2 ^ w) :
    (Skewness.run (finOps ops) : Skewness w (E ε)).skewness
      = X.fin (if Spec.central 3 (sinceClear ops) < ε then 0
          else Spec.skewness (sinceClear ops)) := by
  rw [Skewness.run_fin ops h]
  simp only [Skewness.skewness, Exact.eps_eq, lt_fin, Exact.ofNat_eq, Nat.cast_zero, decide_eq_true_eq,
    Skewness.size, Variance.size, Mean.size]
  by_cases h3 : Spec.central 3 (sinceClear ops) < ε
  · rw [if_pos h3, if_pos h3]
  · rw [if_neg h3, if_neg h3]
    have hne : Spec.central 2 (sinceClear ops) ≠ 0 := by
      intro e
      rw [central_three_of_two e] at h3
      exact h3 hε
    have h2 : 0 < Spec.central 2 (sinceClear ops) :=
      lt_of_le_of_ne (Spec.central_two_nonneg _) (Ne.symm hne)
    have hn : (0 : ℝ) < (sinceClear ops).length := by
      rcases Nat.eq_zero_or_pos (sinceClear ops).length with e | e
      · rw [List.length_eq_zero_iff] at e
        rw [e] at hne; simp at hne
      · exact_mod_cast e
    rw [ofSize_exact h, sqrt_fin hn.le, sqrt_fin h2.le, mul_fin, mul_fin,
      div_fin _ (mul_pos (Real.sqrt_pos.2 h2) h2).ne', skewness_alt _ _ _ hn h2]
    rfl

/-- C03 is violated: for the left-skewed data 0, 3, 3 the skewness is negative but `skewness()` is 0. -/
theorem C03_skewness_violated (hw : 2 ≤ w) (hε : 0 < ε) (hε1 : ε ≤ 1) : ¬ C03_Statement w ε := by
  intro hst
  have hlen : (sinceClear [.push 0, .push 3, .push 3] : List ℝ).length < 2 ^ w := by
    have : (2 : Nat) ^ 2 ≤ 2 ^ w := Nat.pow_le_pow_right (by norm_num) hw
    simp [sinceClear]; omega
  have h1 := hst _ hlen
  rw [skewness_result hε _ hlen] at h1
  have h3 : Spec.central 3 (sinceClear [.push 0, .push 3, .push 3]) = -6 := by
    simp [sinceClear, Spec.central, Spec.mean]; norm_num
  have hv : Spec.variance (sinceClear [.push 0, .push 3, .push 3]) = 2 := by
    simp [sinceClear, Spec.variance, Spec.central, Spec.mean]; norm_num
  have hsk : Spec.skewness (sinceClear [.push 0, .push 3, .push 3]) ≠ 0 := by
    rw [Spec.skewness, h3, hv]
    have : (0 : ℝ) < Real.sqrt 2 := Real.sqrt_pos.2 (by norm_num)
    have h4 : ((sinceClear [.push 0, .push 3, .push 3] : List ℝ).length : ℝ) ≠ 0 := by
      simp [sinceClear]
    positivity
  rw [h3, if_pos (by linarith), if_neg (by rw [abs_of_neg] <;> linarith), X.fin_inj] at h1
  exact hsk h1.symm

/-- C03, the part that holds: the textbook skewness for every data set with `M3 ≥ ε`, and 0 for every
data set with `|M3| < ε`.  Missing: data sets with `M3 ≤ -ε`. -/
theorem C03_skewness_partial (hε : 0 < ε) (ops : List (Op ℝ))
    (h : (sinceClear ops).length < 2 ^ w)
    (hpos : - ε < Spec.central 3 (sinceClear ops)) :
    (Skewness.run (finOps ops) : Skewness w (E ε)).skewness
      = X.fin (if |Spec.central 3 (sinceClear ops)| < ε then 0
          else Spec.skewness (sinceClear ops)) := by
  rw [skewness_result hε ops h]
  congr 1
  by_cases h3 : Spec.central 3 (sinceClear ops) < ε
  · rw [if_pos h3, if_pos (abs_lt.2 ⟨hpos, h3⟩)]
  · rw [if_neg h3, if_neg (fun hh => h3 (abs_lt.1 hh).2)]

example (hε : 0 < ε) (hε1 : ε ≤ 1) : (Skewness.run (finOps demo) : Skewness 64 (E ε)).skewness
    = X.fin (6 / Real.sqrt (14 / 3) ^ 3) := by
  have h3 : Spec.central 3 (sinceClear demo) = 18 := by
    simp [sinceClear_demo, Spec.central, Spec.mean]; norm_num
  rw [C03_skewness_partial hε demo (by rw [sinceClear_demo]; simp) (by rw [h3]; linarith), h3,
    if_neg (by rw [abs_of_pos] <;> linarith), Spec.skewness, h3]
  simp [sinceClear_demo, Spec.variance, Spec.central, Spec.mean]; norm_num

/-! ### C04 -/

/-- Cauchy-Schwarz for lists: `(Σ f)² ≤ n Σ f²`. -/
theorem sum_sq_le (l : List ℝ) : l.sum ^ 2 ≤ l.length * (l.map (· ^ 2)).sum := by
  have h0 : 0 ≤ Spec.about 2 (l.sum / l.length) l := Spec.about_even_nonneg 2 (by decide) _ _
  have e : Spec.about 2 (0 + l.sum / l.length) l = _ := Spec.about_two_shift 0 (l.sum / l.length) l
  have e2 : Spec.about 2 0 l = (l.map (· ^ 2)).sum := by simp [Spec.about]
  rw [zero_add, e2, Spec.about_one] at e
  rcases Nat.eq_zero_or_pos l.length with hl | hl
  · rw [List.length_eq_zero_iff] at hl; subst hl; simp
  · have hp : (0 : ℝ) < l.length := by exact_mod_cast hl
    rw [e] at h0
    have : (l.map (· ^ 2)).sum - l.sum ^ 2 / l.length ≥ 0 := by
      have : (l.map (· ^ 2)).sum - 2 * (l.sum / l.length) * (l.sum - l.length * 0)
          + l.length * (l.sum / l.length) ^ 2 = (l.map (· ^ 2)).sum - l.sum ^ 2 / l.length := by
        field_simp; ring
      linarith
    have h2 := mul_nonneg hp.le this
    have : (l.length : ℝ) * ((l.map (· ^ 2)).sum - l.sum ^ 2 / l.length)
        = l.length * (l.map (· ^ 2)).sum - l.sum ^ 2 := by field_simp
    linarith

theorem central_two_sq_le (xs : List ℝ) :
    Spec.central 2 xs ^ 2 ≤ xs.length * Spec.central 4 xs := by
  have := sum_sq_le (xs.map fun x => (x - Spec.mean xs) ^ 2)
  simp only [List.length_map, List.map_map, Function.comp_def] at this
  have e : (xs.map fun x => ((x - Spec.mean xs) ^ 2) ^ 2).sum = Spec.central 4 xs := by
    simp only [Spec.central, ← pow_mul]
  rw [e] at this
  exact this

/-- The exact result of `kurtosis()` for every history. -/
theorem C04_kurtosis (hε : 0 < ε) (ops : List (Op ℝ))
    (h : (sinceClear ops).length * (sinceClear ops).length < 2 ^ w) :
    let s : Kurtosis w (E ε) := Kurtosis.run (finOps ops)
    let xs := sinceClear ops
    (Spec.central 4 xs < ε → s.kurtosis = X.fin 0)
    ∧ (ε ≤ Spec.central 4 xs → s.kurtosis = X.fin (Spec.kurtosis xs) ∧ 1 ≤ Spec.kurtosis xs) := by
  intro s xs
  have hs : s = _ := Kurtosis.run_fin ops h
  rw [hs]
  simp only [Kurtosis.kurtosis, Exact.eps_eq, lt_fin, Exact.ofNat_eq, Nat.cast_zero, decide_eq_true_eq,
    Kurtosis.size, Skewness.size, Variance.size, Mean.size]
  constructor
  · intro h4; rw [if_pos h4]
  · intro h4
    rw [if_neg (not_lt.2 h4)]
    have hne : Spec.central 2 xs ≠ 0 := by
      intro e
      rw [central_four_of_two e] at h4
      linarith
    have h2 : 0 < Spec.central 2 xs := lt_of_le_of_ne (Spec.central_two_nonneg _) (Ne.symm hne)
    have hn' : 1 ≤ xs.length := by
      rcases Nat.eq_zero_or_pos xs.length with e | e
      · rw [List.length_eq_zero_iff] at e
        rw [e] at hne; simp at hne
      · exact e
    have hn : (0 : ℝ) < xs.length := by exact_mod_cast hn'
    have hlt : (sinceClear ops).length < 2 ^ w := by
      have : 1 ≤ (sinceClear ops).length := hn'
      nlinarith
    have hk : (xs.length : ℝ) * Spec.central 4 xs / (Spec.central 2 xs * Spec.central 2 xs)
        = Spec.kurtosis xs := by
      rw [Spec.kurtosis, Spec.variance]; field_simp
    rw [ofSize_exact hlt, mul_fin, mul_fin, div_fin _ (mul_pos h2 h2).ne']
    refine ⟨by rw [X.fin_inj]; exact hk, ?_⟩
    rw [← hk, le_div_iff₀ (mul_pos h2 h2)]
    have := central_two_sq_le xs
    nlinarith

example (hε : 0 < ε) (hε1 : ε ≤ 1) :
    (Kurtosis.run (finOps demo) : Kurtosis 64 (E ε)).kurtosis = X.fin (3 / 2) := by
  have h4 : Spec.central 4 (sinceClear demo) = 98 := by
    simp [sinceClear_demo, Spec.central, Spec.mean]; norm_num
  rw [((C04_kurtosis hε demo (by rw [sinceClear_demo]; simp)).2 (by rw [h4]; linarith)).1,
    Spec.kurtosis, h4]
  simp [sinceClear_demo, Spec.variance, Spec.central, Spec.mean]; norm_num

/-- C03 for the kurtosis filter: it inherits the skewness of the same history, in any arithmetic. -/
theorem C03_skewness_inherited {α : Type} [Scalar α] (ops : List (Op α)) :
    (Kurtosis.run ops : Kurtosis w α).skewness = (Skewness.run ops : Skewness w α).skewness
    ∧ (Kurtosis.run ops : Kurtosis w α).unbiasedSkewness
        = (Skewness.run ops : Skewness w α).unbiasedSkewness := by
  simp only [Kurtosis.skewness, Kurtosis.unbiasedSkewness, Kurtosis.run_super, and_self]

/-! ### C05 -/

theorem central_three_len_two {xs : List ℝ} (h : xs.length ≤ 2) : Spec.central 3 xs = 0 := by
  match xs, h with
  | [], _ => rfl
  | [a], _ => simp [Spec.central, Spec.mean]
  | [a, b], _ => simp [Spec.central, Spec.mean]; ring

/-- C05: `unbiased_skewness()` is Octave's correction `g sqrt(n(n-1))/(n-2)` of the value returned by
`skewness()`, and 0 for fewer than three values.  It is always a finite number. -/
theorem C05_unbiased_skewness (hε : 0 < ε) (ops : List (Op ℝ))
    (h : (sinceClear ops).length * (sinceClear ops).length < 2 ^ w) :
    let s : Skewness w (E ε) := Skewness.run (finOps ops)
    let n := (sinceClear ops).length
    ∃ g : ℝ, s.skewness = X.fin g ∧
      s.unbiasedSkewness
        = X.fin (if n < 3 then 0 else g * Real.sqrt (n * (n - 1)) / (n - 2)) := by
  intro s n
  have hlt : n < 2 ^ w := by
    rcases Nat.eq_zero_or_pos n with e | e
    · rw [e]; exact Nat.two_pow_pos w
    · have : n * n < 2 ^ w := h
      nlinarith
  have hres : s.skewness = _ := skewness_result hε ops hlt
  refine ⟨_, hres, ?_⟩
  have hs : s = _ := Skewness.run_fin ops hlt
  have hsz : s.size = BitVec.ofNat w n := by rw [hs]; rfl
  have hsum : s.sumSkewness = X.fin (Spec.central 3 (sinceClear ops)) := by rw [hs]
  simp only [Skewness.unbiasedSkewness, hsz, hres, hsum, Exact.eps_eq, lt_fin, Exact.ofNat_eq,
    decide_eq_true_eq, Nat.cast_zero]
  have hcmp : (BitVec.ofNat w n < 2) ↔ n < 2 % 2 ^ w := by
    have h2 : (2 : BitVec w) = BitVec.ofNat w 2 := rfl
    rw [h2, BitVec.lt_def, toNat_ofNat_lt hlt, BitVec.toNat_ofNat]
  by_cases h3 : Spec.central 3 (sinceClear ops) < ε
  · simp [h3]
  · have hn3 : 3 ≤ n := by
      by_contra hc
      rw [central_three_len_two (by omega)] at h3
      exact h3 hε
    have hw2 : 2 % 2 ^ w = 2 := Nat.mod_eq_of_lt (by omega)
    rw [if_neg (by rw [hcmp, hw2]; omega), if_neg h3, if_neg h3, if_neg (by omega)]
    have hr : (3 : ℝ) ≤ n := by exact_mod_cast hn3
    have e1 : BitVec.ofNat w n * (BitVec.ofNat w n - 1) = BitVec.ofNat w (n * (n - 1)) := by
      rw [ofNat_sub_one (by omega), BitVec.ofNat_mul]
    have e2 : BitVec.ofNat w n - 2 = BitVec.ofNat w (n - 2) := ofNat_sub (k := 2) (by omega)
    have e3 : n * (n - 1) < 2 ^ w := lt_of_le_of_lt (Nat.mul_le_mul_left n (Nat.sub_le n 1)) h
    rw [e1, e2, ofSize_exact e3, ofSize_exact (by omega), sqrt_fin (by positivity), mul_fin,
      Nat.cast_sub (by omega), Nat.cast_mul, Nat.cast_sub (by omega),
      div_fin _ (by push_cast; linarith)]
    push_cast; rfl

/-- C05: `unbiased_kurtosis()` is Octave's correction
`3 + (n-1)/((n-2)(n-3)) ((n+1) k - 3(n-1))` of `kurtosis()`, and 0 for fewer than four values or if `M4`
is below the machine epsilon.  It is always a finite number. -/
theorem C05_unbiased_kurtosis (hε : 0 < ε) (ops : List (Op ℝ))
    (h : (sinceClear ops).length * (sinceClear ops).length < 2 ^ w) :
    let s : Kurtosis w (E ε) := Kurtosis.run (finOps ops)
    let n := (sinceClear ops).length
    ∃ k : ℝ, s.kurtosis = X.fin k ∧
      s.unbiasedKurtosis
        = X.fin (if n < 4 ∨ Spec.central 4 (sinceClear ops) < ε then 0
            else 3 + (n - 1) / ((n - 2) * (n - 3)) * ((n + 1) * k - 3 * (n - 1))) := by
  intro s n
  have hlt : n < 2 ^ w := by
    rcases Nat.eq_zero_or_pos n with e | e
    · rw [e]; exact Nat.two_pow_pos w
    · have : n * n < 2 ^ w := h
      nlinarith
  have hs : s = _ := Kurtosis.run_fin ops h
  have hsz : s.size = BitVec.ofNat w n := by rw [hs]; rfl
  have hsum : s.sumKurtosis = X.fin (Spec.central 4 (sinceClear ops)) := by rw [hs]
  have hk := C04_kurtosis (w := w) hε ops h
  have hk' : ∃ k : ℝ, s.kurtosis = X.fin k := by
    rcases lt_or_ge (Spec.central 4 (sinceClear ops)) ε with h4 | h4
    · exact ⟨_, hk.1 h4⟩
    · exact ⟨_, (hk.2 h4).1⟩
  obtain ⟨k, hkk⟩ := hk'
  refine ⟨k, hkk, ?_⟩
  simp only [Kurtosis.unbiasedKurtosis, hsz, hkk, hsum, Exact.eps_eq, lt_fin, Exact.ofNat_eq,
    decide_eq_true_eq]
  have hcmp : (BitVec.ofNat w n < 4) ↔ n < 4 % 2 ^ w := by
    have h2 : (4 : BitVec w) = BitVec.ofNat w 4 := rfl
    rw [h2, BitVec.lt_def, toNat_ofNat_lt hlt, BitVec.toNat_ofNat]
  by_cases h4 : Spec.central 4 (sinceClear ops) < ε
  · simp [h4]
  · by_cases hn : n < 4
    · -- then `2^w` may be 4, in which case the comparison `count < 4` is `count < 0`
      rw [if_pos (Or.inl hn)]
      by_cases hw : 4 < 2 ^ w
      · rw [if_pos (by rw [hcmp, Nat.mod_eq_of_lt hw]; exact hn)]; simp
      · exfalso
        have h4w : 2 ^ w ≤ 4 := by omega
        have : n * n < 4 := by have : n * n < 2 ^ w := h; omega
        have hn1 : n ≤ 1 := by nlinarith
        apply h4
        have : Spec.central 4 (sinceClear ops) = 0 := by
          have hl : (sinceClear ops).length ≤ 1 := hn1
          match hsc : sinceClear ops, hl with
          | [], _ => rfl
          | [a], _ => simp [Spec.central, Spec.mean]
        rw [this]; exact hε
    · have hn4 : 4 ≤ n := by omega
      have hw4 : 4 % 2 ^ w = 4 := Nat.mod_eq_of_lt (by nlinarith [h])
      have hnn : n * n < 2 ^ w := h
      rw [if_neg (by rw [hcmp, hw4]; omega), if_neg h4, if_neg (by simp [hn, h4])]
      have hr : (4 : ℝ) ≤ n := by exact_mod_cast hn4
      have e1 : BitVec.ofNat w n - 1 = BitVec.ofNat w (n - 1) := ofNat_sub_one (by omega)
      have e2 : (BitVec.ofNat w n - 2) * (BitVec.ofNat w n - 3)
          = BitVec.ofNat w ((n - 2) * (n - 3)) := by
        have a : BitVec.ofNat w n - 2 = BitVec.ofNat w (n - 2) := ofNat_sub (k := 2) (by omega)
        have b : BitVec.ofNat w n - 3 = BitVec.ofNat w (n - 3) := ofNat_sub (k := 3) (by omega)
        rw [a, b, BitVec.ofNat_mul]
      have e3 : (n - 2) * (n - 3) < 2 ^ w :=
        lt_of_le_of_lt (Nat.mul_le_mul (Nat.sub_le n 2) (Nat.sub_le n 3)) h
      have e4 : n + 1 < 2 ^ w := by nlinarith
      rw [e1, e2, ofNat_add_one, ofSize_exact (by omega), ofSize_exact e3, ofSize_exact e4,
        Nat.cast_mul, Nat.cast_sub (by omega), Nat.cast_sub (by omega), Nat.cast_sub (by omega),
        div_fin _ (by push_cast; exact (mul_pos (by linarith) (by linarith)).ne')]
      simp only [mul_fin, sub_fin, add_fin]
      push_cast; rfl

example (hε : 0 < ε) (hε1 : ε ≤ 1) :
    (Kurtosis.run (finOps [.push 0, .push 1, .push 2, .push 5]) : Kurtosis 64 (E ε)).unbiasedKurtosis
      = X.fin (3 + 3 / 2 * (5 * (2 : ℝ) - 9) + (3 / 2) * 5 * (Spec.kurtosis [0, 1, 2, 5] - 2)) := by
  obtain ⟨k, hk, hu⟩ := C05_unbiased_kurtosis (w := 64) hε
    [.push 0, .push 1, .push 2, .push 5] (by simp [sinceClear])
  have e : sinceClear [.push 0, .push 1, .push 2, .push 5] = ([0, 1, 2, 5] : List ℝ) := rfl
  have h4 : Spec.central 4 (sinceClear [.push 0, .push 1, .push 2, .push 5]) = 98 := by
    rw [e]; simp [Spec.central, Spec.mean]; norm_num
  have hk2 := ((C04_kurtosis (w := 64) hε
    [.push 0, .push 1, .push 2, .push 5] (by simp [sinceClear])).2 (by rw [h4]; linarith)).1
  rw [hk, X.fin_inj] at hk2
  rw [hu, h4, if_neg (by simp [sinceClear]; linarith), hk2, e]
  congr 1
  simp; ring

end Verif.Props
