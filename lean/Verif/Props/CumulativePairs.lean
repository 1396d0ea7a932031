import Verif.Proofs.Cumulative
import Verif.Proofs.PairLemmas
import Mathlib.Data.Sign.Basic
/-
C09 - C14: cumulative covariance, correlation, regression and trend (exact arithmetic).
-/
namespace Verif.Props
open Scalar Exact Verif.Cumulative

variable {w : Nat} {ε : ℝ}

/-- Comparison `size() > k` of `size_t` values. -/
theorem size_gt {n k : Nat} (hn : n < 2 ^ w) (hk : k < 2 ^ w) :
    (BitVec.ofNat w n > BitVec.ofNat w k) ↔ k < n := by
  rw [gt_iff_lt, BitVec.lt_def, toNat_ofNat_lt hn, toNat_ofNat_lt hk]

/-- The pairs used in the examples. -/
def demo2 : List (Op (ℝ × ℝ)) :=
  [.push (9, 1), .clear, .push (1, 2), .push (2, 3), .push (6, 1)]

theorem sinceClear_demo2 : sinceClear demo2 = [(1, 2), (2, 3), (6, 1)] := rfl

/-! ### C09 -/

/-- C09: covariance. -/
theorem C09_covariance (ops : List (Op (ℝ × ℝ))) (h : (sinceClear ops).length < 2 ^ w) :
    let s : Comoment w (E ε) := Comoment.run (finOps2 ops)
    let ps := sinceClear ops
    s.sizeAssertion
    ∧ s.size.toNat = ps.length
    ∧ (1 ≤ ps.length → s.variance = X.fin (Spec.covariance ps))
    ∧ (ps.length = 0 → s.variance = X.fin 0)
    ∧ (2 ≤ ps.length → s.unbiasedVariance = X.fin (Spec.cosum ps / (ps.length - 1)))
    ∧ (ps.length ≤ 1 → s.unbiasedVariance = X.fin 0) := by
  intro s ps
  have hs : s = _ := Comoment.run_fin ops h
  have hsz : s.size = BitVec.ofNat w (sinceClear ops).length := by rw [hs]; rfl
  have hce : s.center = X.fin (Spec.cosum ps) := by rw [hs]
  have h0 : (0 : BitVec w) = BitVec.ofNat w 0 := rfl
  have h1 : (1 : BitVec w) = BitVec.ofNat w 1 := rfl
  refine ⟨by rw [hs]; rfl, by rw [hsz]; exact toNat_ofNat_lt h, ?_, ?_, ?_, ?_⟩
  · intro hn
    have hp : (0 : ℝ) < (sinceClear ops).length := by exact_mod_cast hn
    rw [Comoment.variance, if_pos (by rw [hsz, h0, size_gt h (Nat.two_pow_pos w)]; exact hn), hsz, hce,
      ofSize_exact h, div_fin _ hp.ne']
    rfl
  · intro hn
    rw [Comoment.variance,
      if_neg (by rw [hsz, h0, size_gt h (Nat.two_pow_pos w)]; exact Nat.not_lt.2 hn.le)]
    simp
  · intro hn
    have hn' : 2 ≤ (sinceClear ops).length := hn
    have hp : (0 : ℝ) < (sinceClear ops).length - 1 := by
      have : (2 : ℝ) ≤ (sinceClear ops).length := by exact_mod_cast hn
      linarith
    rw [Comoment.unbiasedVariance, if_pos (by rw [hsz, h1, size_gt h (by omega)]; omega), hsz, hce,
      ofNat_sub_one (by omega), ofSize_exact (by omega), Nat.cast_sub (by omega), Nat.cast_one,
      div_fin _ hp.ne']
  · intro hn
    have hn' : (sinceClear ops).length ≤ 1 := hn
    rw [Comoment.unbiasedVariance]
    rcases Nat.eq_zero_or_pos w with hw | hw
    · subst hw
      rw [if_neg]
      · simp
      · rw [gt_iff_lt, BitVec.lt_def]
        have := s.size.isLt
        omega
    · have : 2 ≤ 2 ^ w := by
        calc 2 = 2 ^ 1 := rfl
          _ ≤ 2 ^ w := Nat.pow_le_pow_right (by norm_num) hw
      rw [if_neg (by rw [hsz, h1, size_gt h (by omega)]; omega)]
      simp

example : (Comoment.run (finOps2 demo2) : Comoment 64 (E ε)).variance = X.fin (-4 / 3) := by
  rw [(C09_covariance (w := 64) (ε := ε) demo2 (by rw [sinceClear_demo2]; simp)).2.2.1
    (by simp [sinceClear_demo2]), sinceClear_demo2]
  simp [Spec.covariance, Spec.cosum, Spec.xsOf, Spec.ysOf, Spec.mean]; norm_num

/-- C09: the size assertion holds in any arithmetic, also when the counter wraps. -/
theorem C09_size_assertion {α : Type} [Scalar α] (ops : List (Op (α × α))) :
    (Comoment.run ops : Comoment w α).sizeAssertion
    ∧ (Correlation.run ops : Correlation w α).co.sizeAssertion
    ∧ (Regression.run ops : Regression w α).sizeAssertion := by
  have hm : ∀ xs : List α, (xs.foldl Mean.push (Mean.init : Mean w α)).count
      = BitVec.ofNat w xs.length := by
    intro xs
    induction xs using List.reverseRecOn with
    | nil => rfl
    | append_singleton xs x ih =>
      simp only [List.foldl_append, List.foldl_cons, List.foldl_nil, List.length_append,
        List.length_singleton, ← ofNat_add_one, ← ih]
      rfl
  have hv : ∀ xs : List α, (xs.foldl Variance.push (Variance.init : Variance w α)).super
      = xs.foldl Mean.push (Mean.init : Mean w α) := by
    intro xs
    induction xs using List.reverseRecOn with
    | nil => rfl
    | append_singleton xs x ih =>
      simp only [List.foldl_append, List.foldl_cons, List.foldl_nil, ← ih]; rfl
  have hc := Comoment.fold_centers (w := w) (sinceClear ops)
  refine ⟨?_, ?_, ?_⟩
  · rw [Comoment.run_eq]
    simp only [Comoment.sizeAssertion, hc.1, hc.2, Mean.size, hm, List.length_map]
  · rw [Correlation.run_eq, Correlation.fold_any]
    simp only [Comoment.sizeAssertion, hc.1, hc.2, Mean.size, hm, List.length_map]
  · rw [Regression.run_eq, Regression.fold_any]
    simp only [Regression.sizeAssertion, Variance.size, Mean.size, hv, hm, List.length_map]

/-- C09: `size()` is the number of pairs since the last `clear()`, modulo the range of `size_t`, in any arithmetic. -/
theorem C09_sizes {α : Type} [Scalar α] (ops : List (Op (α × α))) :
    (Comoment.run ops : Comoment w α).size = BitVec.ofNat w (sinceClear ops).length
    ∧ (Correlation.run ops : Correlation w α).size = BitVec.ofNat w (sinceClear ops).length
    ∧ (Regression.run ops : Regression w α).size = BitVec.ofNat w (sinceClear ops).length := by
  have hm : ∀ xs : List α, (xs.foldl Mean.push (Mean.init : Mean w α)).count = BitVec.ofNat w xs.length := by
    intro xs
    induction xs using List.reverseRecOn with
    | nil => rfl
    | append_singleton xs x ih =>
      simp only [List.foldl_append, List.foldl_cons, List.foldl_nil, List.length_append,
        List.length_singleton, ← ofNat_add_one, ← ih]
      rfl
  have hc := Comoment.fold_centers (w := w) (sinceClear ops)
  refine ⟨?_, ?_, ?_⟩
  · rw [Comoment.run_eq]
    simp only [Comoment.size, hc.1, Mean.size, hm, List.length_map]
  · rw [Correlation.run_eq, Correlation.fold_any]
    simp only [Correlation.size, Comoment.size, hc.1, Mean.size, hm, List.length_map]
  · rw [Regression.run_eq, Regression.fold_any]
    have hv : ∀ xs : List α, (xs.foldl Variance.push (Variance.init : Variance w α)).super
        = xs.foldl Mean.push (Mean.init : Mean w α) := by
      intro xs
      induction xs using List.reverseRecOn with
      | nil => rfl
      | append_singleton xs x ih =>
        simp only [List.foldl_append, List.foldl_cons, List.foldl_nil, ← ih]; rfl
    simp only [Regression.size, Variance.size, hv, Mean.size, hm, List.length_map]

example : (Regression.run [.push (X.fin 1, X.fin 2), .clear, .push (X.fin 3, X.fin 4), .push (X.fin 5, X.fin 7)] :
    Regression 64 (E 0)).size = 2 :=
  (C09_sizes _).2.2

/-- C09: symmetric in the two arguments. -/
theorem C09_covariance_symmetric (ops : List (Op (ℝ × ℝ))) (h : (sinceClear ops).length < 2 ^ w) :
    (Comoment.run (finOps2 (ops.map (Op.map Prod.swap))) : Comoment w (E ε)).variance
      = (Comoment.run (finOps2 ops) : Comoment w (E ε)).variance
    ∧ (Comoment.run (finOps2 (ops.map (Op.map Prod.swap))) : Comoment w (E ε)).unbiasedVariance
      = (Comoment.run (finOps2 ops) : Comoment w (E ε)).unbiasedVariance := by
  have e := sinceClear_map Prod.swap ops
  have h' : (sinceClear (ops.map (Op.map Prod.swap))).length < 2 ^ w := by
    rw [e, List.length_map]; exact h
  rw [Comoment.run_fin _ h, Comoment.run_fin _ h', e, Spec.cosum_swap, List.length_map]
  exact ⟨rfl, rfl⟩

/-- C09: the covariance of a variable with itself is its variance. -/
theorem C09_covariance_self (ops : List (Op ℝ)) (h : (sinceClear ops).length < 2 ^ w)
    (h1 : 1 ≤ (sinceClear ops).length) :
    (Comoment.run (finOps2 (ops.map (Op.map fun x => (x, x)))) : Comoment w (E ε)).variance
      = (Variance.run (finOps ops) : Variance w (E ε)).variance := by
  have e := sinceClear_map (fun x : ℝ => (x, x)) ops
  have h' : (sinceClear (ops.map (Op.map fun x : ℝ => (x, x)))).length < 2 ^ w := by
    rw [e, List.length_map]; exact h
  rw [(C09_covariance _ h').2.2.1 (by rw [e, List.length_map]; exact h1), Variance.run_fin _ h, e]
  simp only [Variance.variance]
  have hp : (0 : ℝ) < (sinceClear ops).length := by exact_mod_cast h1
  rw [ofSize_exact h, div_fin _ hp.ne', Spec.covariance, Spec.cosum_diag, List.length_map]

example : (Comoment.run (finOps2 ([.push 1, .push 3].map (Op.map fun x => (x, x))))
      : Comoment 64 (E ε)).variance
    = (Variance.run (finOps [.push 1, .push 3]) : Variance 64 (E ε)).variance :=
  C09_covariance_self _ (by simp [sinceClear]) (by simp [sinceClear])

/-! ### C10 -/

/-- The exact result of `correlation::value()` for a non-empty history. -/
theorem correlation_result (hε : 0 < ε) (ops : List (Op (ℝ × ℝ)))
    (h : (sinceClear ops).length < 2 ^ w) (h1 : 1 ≤ (sinceClear ops).length) :
    let ps := sinceClear ops
    let vp := Spec.variance (Spec.xsOf ps) * Spec.variance (Spec.ysOf ps)
    (Correlation.run (finOps2 ops) : Correlation w (E ε)).value
      = X.fin (if vp < ε then 1 else Spec.covariance ps / Real.sqrt vp) := by
  intro ps vp
  have hp : (0 : ℝ) < ps.length := by exact_mod_cast h1
  have hco := (C09_covariance (ε := ε) ops h).2.2.1 h1
  rw [Comoment.run_fin ops h] at hco
  have hs := Correlation.run_fin (ε := ε) ops h
  generalize (Correlation.run (finOps2 ops) : Correlation w (E ε)) = s at hs ⊢
  have hc' : s.co.variance = X.fin (Spec.covariance ps) := by rw [hs]; exact hco
  have hx : s.x.variance = X.fin (Spec.central 2 (Spec.xsOf ps) / ps.length) := by
    rw [hs]; simp only [Variance.variance]; rw [ofSize_exact h, div_fin _ hp.ne']
  have hy : s.y.variance = X.fin (Spec.central 2 (Spec.ysOf ps) / ps.length) := by
    rw [hs]; simp only [Variance.variance]; rw [ofSize_exact h, div_fin _ hp.ne']
  simp only [Correlation.value]
  rw [hx, hy, hc', mul_fin]
  have e : Spec.central 2 (Spec.xsOf (sinceClear ops)) / ((sinceClear ops).length : ℝ)
      * (Spec.central 2 (Spec.ysOf (sinceClear ops)) / ((sinceClear ops).length : ℝ)) = vp := by
    simp only [vp, ps, Spec.variance, Spec.length_xsOf, Spec.length_ysOf]
  rw [e]
  simp only [Exact.eps_eq, lt_fin, decide_eq_true_eq, Exact.ofNat_eq, Nat.cast_one]
  by_cases hc : vp < ε
  · rw [if_pos hc, if_pos hc]
  · rw [if_neg hc, if_neg hc]
    have hvp : 0 < vp := lt_of_lt_of_le hε (not_lt.1 hc)
    rw [sqrt_fin hvp.le, div_fin _ (Real.sqrt_pos.2 hvp).ne']

/-- C10: `value()` is a number in `[-1, 1]`. -/
theorem C10_correlation_bounded (hε : 0 < ε) (ops : List (Op (ℝ × ℝ)))
    (h : (sinceClear ops).length < 2 ^ w) (h1 : 1 ≤ (sinceClear ops).length) :
    ∃ r : ℝ, (Correlation.run (finOps2 ops) : Correlation w (E ε)).value = X.fin r
      ∧ -1 ≤ r ∧ r ≤ 1 := by
  refine ⟨_, correlation_result hε ops h h1, ?_⟩
  have hp : (0 : ℝ) < (sinceClear ops).length := by exact_mod_cast h1
  rw [← abs_le]
  split_ifs with hc
  · simp
  · have hvp := lt_of_lt_of_le hε (not_lt.1 hc)
    rw [abs_div, abs_of_pos (Real.sqrt_pos.2 hvp), div_le_one (Real.sqrt_pos.2 hvp)]
    apply Real.abs_le_sqrt
    have := Spec.cosum_sq_le (sinceClear ops)
    simp only [Spec.covariance, Spec.variance, Spec.length_xsOf, Spec.length_ysOf]
    rw [div_pow, div_mul_div_comm, sq ((sinceClear ops).length : ℝ)]
    exact div_le_div_of_nonneg_right this (by positivity)

example (hε : 0 < ε) : ∃ r : ℝ,
    (Correlation.run (finOps2 demo2) : Correlation 64 (E ε)).value = X.fin r ∧ -1 ≤ r ∧ r ≤ 1 :=
  C10_correlation_bounded hε demo2 (by rw [sinceClear_demo2]; simp) (by simp [sinceClear_demo2])

/-- C10: above the cut-off the value is the Pearson correlation coefficient. -/
theorem C10_pearson (hε : 0 < ε) (ops : List (Op (ℝ × ℝ)))
    (h : (sinceClear ops).length < 2 ^ w) (h1 : 1 ≤ (sinceClear ops).length)
    (hcut : ε ≤ Spec.variance (Spec.xsOf (sinceClear ops)) * Spec.variance (Spec.ysOf (sinceClear ops))) :
    (Correlation.run (finOps2 ops) : Correlation w (E ε)).value
      = X.fin (Spec.covariance (sinceClear ops)
          / (Real.sqrt (Spec.variance (Spec.xsOf (sinceClear ops)))
            * Real.sqrt (Spec.variance (Spec.ysOf (sinceClear ops))))) := by
  have := correlation_result hε ops h h1
  simp only at this
  rw [this, if_neg (not_lt.2 hcut), Real.sqrt_mul]
  exact div_nonneg (Spec.central_two_nonneg _) (by positivity)

/-! ### C11 -/

/-- C11 as stated. -/
def C11_Statement (w : Nat) (ε : ℝ) : Prop :=
  ∀ (ops : List (Op (ℝ × ℝ))) (a b : ℝ), (sinceClear ops).length < 2 ^ w → a ≠ 0 →
    (∀ p ∈ sinceClear ops, p.2 = a * p.1 + b) →
    (∃ p ∈ sinceClear ops, ∃ q ∈ sinceClear ops, p.1 ≠ q.1) →
    (Correlation.run (finOps2 ops) : Correlation w (E ε)).value = X.fin (SignType.sign a : ℝ)

/-- C11 is violated: the falling data `(0, 0), (d, -d)` with a small `d` has correlation `-1`, but
`value()` returns `1` because the product of the variances is below the machine epsilon. -/
theorem C11_linear_violated (hw : 2 ≤ w) (hε : 0 < ε) (hε1 : ε ≤ 1) : ¬ C11_Statement w ε := by
  intro hst
  have e : sinceClear [.push (0, 0), .push (ε, -ε)] = ([(0, 0), (ε, -ε)] : List (ℝ × ℝ)) := rfl
  have hlen : (sinceClear [.push (0, 0), .push (ε, -ε)] : List (ℝ × ℝ)).length < 2 ^ w := by
    have : (2 : Nat) ^ 2 ≤ 2 ^ w := Nat.pow_le_pow_right (by norm_num) hw
    rw [e]; simp; omega
  have h1 := hst [.push (0, 0), .push (ε, -ε)] (-1) 0 hlen (by norm_num)
    (by rw [e]; simp) (by
      rw [e]
      exact ⟨(0, 0), by simp, (ε, -ε), by simp, hε.ne⟩)
  have hr := correlation_result (w := w) hε [.push (0, 0), .push (ε, -ε)] hlen (by rw [e]; simp)
  have hv : Spec.variance (Spec.xsOf [(0, 0), (ε, -ε)]) * Spec.variance (Spec.ysOf [(0, 0), (ε, -ε)])
      = ε ^ 4 / 16 := by
    simp [Spec.variance, Spec.central, Spec.mean]; ring
  simp only [e, hv] at hr
  have hlt : ε ^ 4 / 16 < ε := by
    have h3 : ε ^ 3 ≤ 1 := pow_le_one₀ hε.le hε1
    have h4 : ε * ε ^ 3 ≤ ε * 1 := mul_le_mul_of_nonneg_left h3 hε.le
    have h5 : ε ^ 4 = ε * ε ^ 3 := by ring
    rw [h5]
    linarith
  rw [if_pos hlt, h1, X.fin_inj] at hr
  have : SignType.sign (-1 : ℝ) = -1 := sign_neg (by norm_num)
  rw [this] at hr
  norm_num at hr

/-- C11, the part that holds: exactly `±1` when the product of the variances reaches the machine
epsilon, and `1` for every rising line at any scale.  Missing: falling lines at small scale. -/
theorem C11_linear_partial (hε : 0 < ε) (ops : List (Op (ℝ × ℝ))) (a b : ℝ)
    (h : (sinceClear ops).length < 2 ^ w) (ha : a ≠ 0)
    (hline : ∀ p ∈ sinceClear ops, p.2 = a * p.1 + b)
    (hx : ∃ p ∈ sinceClear ops, ∃ q ∈ sinceClear ops, p.1 ≠ q.1)
    (hscale : 0 < a ∨ ε ≤ Spec.variance (Spec.xsOf (sinceClear ops))
      * Spec.variance (Spec.ysOf (sinceClear ops))) :
    (Correlation.run (finOps2 ops) : Correlation w (E ε)).value = X.fin (SignType.sign a : ℝ) := by
  obtain ⟨p, hp, q, hq, hpq⟩ := hx
  have h1 : 1 ≤ (sinceClear ops).length := List.length_pos_of_mem hp
  have hn : (0 : ℝ) < (sinceClear ops).length := by exact_mod_cast h1
  have hres := correlation_result (w := w) hε ops h h1
  simp only at hres
  rw [hres, X.fin_inj]
  have hne : Spec.central 2 (Spec.xsOf (sinceClear ops)) ≠ 0 := by
    rw [Ne, Spec.central_two_eq_zero]
    intro hall
    exact hpq (hall p.1 (List.mem_map_of_mem hp) q.1 (List.mem_map_of_mem hq))
  have hpos : 0 < Spec.central 2 (Spec.xsOf (sinceClear ops)) :=
    lt_of_le_of_ne (Spec.central_two_nonneg _) (Ne.symm hne)
  split_ifs with hc
  · rcases hscale with hs | hs
    · rw [sign_pos hs]; simp
    · exact absurd hc (not_lt.2 hs)
  · simp only [Spec.covariance, Spec.variance, Spec.cosum_of_line hline,
      Spec.central_ys_of_line hline, Spec.length_xsOf, Spec.length_ysOf]
    generalize Spec.central 2 (Spec.xsOf (sinceClear ops)) = c at hpos
    generalize ((sinceClear ops).length : ℝ) = n at hn
    have e : c / n * (a ^ 2 * c / n) = (a * (c / n)) ^ 2 := by ring
    have hcn : 0 < c / n := div_pos hpos hn
    rw [e, Real.sqrt_sq_eq_abs, abs_mul, abs_of_pos hcn, mul_div_assoc,
      mul_div_mul_right _ _ hcn.ne']
    rcases lt_or_gt_of_ne ha with hneg | hpo
    · rw [sign_neg hneg, abs_of_neg hneg, div_neg, div_self ha]; simp
    · rw [sign_pos hpo, abs_of_pos hpo, div_self ha]; simp

example (hε : 0 < ε) (hε1 : ε ≤ 1) :
    (Correlation.run (finOps2 [.push (0, 4), .push (4, -4)]) : Correlation 64 (E ε)).value
      = X.fin (-1) := by
  have e : sinceClear [.push (0, 4), .push (4, -4)] = ([(0, 4), (4, -4)] : List (ℝ × ℝ)) := rfl
  rw [C11_linear_partial hε [.push (0, 4), .push (4, -4)] (-2) 4 (by rw [e]; simp) (by norm_num)
    (by rw [e]; simp; norm_num) (by rw [e]; exact ⟨(0, 4), by simp, (4, -4), by simp, by norm_num⟩)
    (Or.inr (by
      rw [e]; simp [Spec.variance, Spec.central, Spec.mean]; norm_num; linarith))]
  rw [sign_neg (by norm_num)]; simp

/-! ### C12 -/

/-- The exact results of `slope()` and `at()` for a non-empty history. -/
theorem regression_result (ops : List (Op (ℝ × ℝ))) (h : (sinceClear ops).length < 2 ^ w)
    (h1 : 1 ≤ (sinceClear ops).length) :
    let s : Regression w (E ε) := Regression.run (finOps2 ops)
    let ps := sinceClear ops
    let b := if Spec.central 2 (Spec.xsOf ps) = 0 then 0
      else Spec.cosum ps / Spec.central 2 (Spec.xsOf ps)
    s.slope = X.fin b
    ∧ ∀ x : ℝ, s.at' (X.fin x)
        = X.fin (Spec.mean (Spec.ysOf ps) - b * (Spec.mean (Spec.xsOf ps) - x)) := by
  intro s ps b
  have hp : (0 : ℝ) < ps.length := by exact_mod_cast h1
  have hco := (C09_covariance (ε := ε) ops h).2.2.1 h1
  rw [Comoment.run_fin ops h] at hco
  have hs : s = _ := Regression.run_fin ops h
  have hslope : s.slope = X.fin b := by
    have hc' : s.co.variance = X.fin (Spec.covariance ps) := by rw [hs]; exact hco
    have hx : s.x.variance = X.fin (Spec.central 2 (Spec.xsOf ps) / ps.length) := by
      rw [hs]; simp only [Variance.variance]; rw [ofSize_exact h, div_fin _ hp.ne']
    simp only [Regression.slope]
    rw [hx, hc', Exact.ofNat_eq, Nat.cast_zero, beq_fin]
    have e : Spec.central 2 (Spec.xsOf (sinceClear ops)) / ((sinceClear ops).length : ℝ) = 0
        ↔ Spec.central 2 (Spec.xsOf ps) = 0 := by
      rw [div_eq_zero_iff, or_iff_left hp.ne']
    by_cases hc : Spec.central 2 (Spec.xsOf ps) = 0
    · rw [if_pos (decide_eq_true (e.2 hc))]
      simp only [b, if_pos hc]
    · have hc' : ¬ Spec.central 2 (Spec.xsOf (sinceClear ops)) / ((sinceClear ops).length : ℝ) = 0 :=
        fun hh => hc (e.1 hh)
      have hd : (decide (Spec.central 2 (Spec.xsOf (sinceClear ops)) / ((sinceClear ops).length : ℝ) = 0))
          = false := decide_eq_false hc'
      rw [hd, div_fin _ hc']
      simp only [b, if_neg hc, Spec.covariance, Bool.false_eq_true, if_false, X.fin_inj]
      have hn := hp.ne'
      simp only [ps] at hn hc ⊢
      field_simp
  refine ⟨hslope, ?_⟩
  intro x
  have h1 : s.y.getMean = X.fin (Spec.mean (Spec.ysOf ps)) := by rw [hs]; rfl
  have h2 : s.x.getMean = X.fin (Spec.mean (Spec.xsOf ps)) := by rw [hs]; rfl
  simp only [Regression.at', hslope, h1, h2, sub_fin, mul_fin]

/-- C12: for every non-empty history there is a line `a + b x` such that `slope()` is `b`, `at(x)` is
`a + b x` for every `x`, and no other line has a smaller sum of squared residuals; it is the only such
line if at least two `x` differ; if all `x` are equal it is the constant mean of `y`. -/
theorem C12_least_squares (ops : List (Op (ℝ × ℝ))) (h : (sinceClear ops).length < 2 ^ w)
    (h1 : 1 ≤ (sinceClear ops).length) :
    let s : Regression w (E ε) := Regression.run (finOps2 ops)
    let ps := sinceClear ops
    ∃ a b : ℝ,
      s.slope = X.fin b
      ∧ (∀ x : ℝ, s.at' (X.fin x) = X.fin (a + b * x))
      ∧ (∀ a' b' : ℝ, Spec.sse a b ps ≤ Spec.sse a' b' ps)
      ∧ ((∃ p ∈ ps, ∃ q ∈ ps, p.1 ≠ q.1) →
          ∀ a' b' : ℝ, Spec.sse a' b' ps ≤ Spec.sse a b ps → a' = a ∧ b' = b)
      ∧ ((∀ p ∈ ps, ∀ q ∈ ps, p.1 = q.1) → b = 0 ∧ a = Spec.mean (Spec.ysOf ps)) := by
  intro s ps
  obtain ⟨hsl, hat⟩ := regression_result (ε := ε) ops h h1
  have hne : ps ≠ [] := List.length_pos_iff.1 h1
  refine ⟨Spec.mean (Spec.ysOf ps) - (if Spec.central 2 (Spec.xsOf ps) = 0 then 0
      else Spec.cosum ps / Spec.central 2 (Spec.xsOf ps)) * Spec.mean (Spec.xsOf ps), _, hsl,
      fun x => (hat x).trans ?_, ?_, ?_, ?_⟩
  · rw [X.fin_inj]; ring
  · apply Spec.sse_min
    · ring
    · split_ifs with hc
      · rw [Spec.cosum_eq_zero_of hc]; ring
      · exact div_mul_cancel₀ _ hc
  · rintro ⟨p, hp, q, hq, hpq⟩ a' b' hle
    have hc : Spec.central 2 (Spec.xsOf ps) ≠ 0 := by
      rw [Ne, Spec.central_two_eq_zero]
      intro hall
      exact hpq (hall p.1 (List.mem_map_of_mem hp) q.1 (List.mem_map_of_mem hq))
    refine Spec.sse_min_unique hne ?_ ?_ hc hle
    · ring
    · rw [if_neg hc]; exact div_mul_cancel₀ _ hc
  · intro hall
    have hc : Spec.central 2 (Spec.xsOf ps) = 0 := by
      rw [Spec.central_two_eq_zero]
      intro x hx y hy
      obtain ⟨p, hp, rfl⟩ := List.mem_map.1 hx
      obtain ⟨q, hq, rfl⟩ := List.mem_map.1 hy
      exact hall p hp q hq
    rw [if_pos hc]
    exact ⟨rfl, by ring⟩

example : ∃ a b : ℝ, (Regression.run (finOps2 demo2) : Regression 64 (E ε)).slope = X.fin b
    ∧ ∀ a' b' : ℝ, Spec.sse a b (sinceClear demo2) ≤ Spec.sse a' b' (sinceClear demo2) := by
  obtain ⟨a, b, h1, _, h3, _⟩ := C12_least_squares (w := 64) (ε := ε) demo2
    (by rw [sinceClear_demo2]; simp) (by simp [sinceClear_demo2])
  exact ⟨a, b, h1, h3⟩

/-! ### C13 -/

/-- C13 (cumulative): data on a line is reproduced exactly. -/
theorem C13_exact_line (ops : List (Op (ℝ × ℝ))) (a b : ℝ) (h : (sinceClear ops).length < 2 ^ w)
    (hline : ∀ p ∈ sinceClear ops, p.2 = a * p.1 + b)
    (hx : ∃ p ∈ sinceClear ops, ∃ q ∈ sinceClear ops, p.1 ≠ q.1) :
    let s : Regression w (E ε) := Regression.run (finOps2 ops)
    s.slope = X.fin a ∧ ∀ x : ℝ, s.at' (X.fin x) = X.fin (a * x + b) := by
  intro s
  obtain ⟨p, hp, q, hq, hpq⟩ := hx
  have h1 : 1 ≤ (sinceClear ops).length := List.length_pos_of_mem hp
  have hne : sinceClear ops ≠ [] := List.ne_nil_of_mem hp
  have hc : Spec.central 2 (Spec.xsOf (sinceClear ops)) ≠ 0 := by
    rw [Ne, Spec.central_two_eq_zero]
    intro hall
    exact hpq (hall p.1 (List.mem_map_of_mem hp) q.1 (List.mem_map_of_mem hq))
  obtain ⟨hsl, hat⟩ := regression_result (ε := ε) ops h h1
  have hb : Spec.cosum (sinceClear ops) / Spec.central 2 (Spec.xsOf (sinceClear ops)) = a := by
    rw [Spec.cosum_of_line hline]; field_simp
  refine ⟨hsl.trans ?_, fun x => (hat x).trans ?_⟩
  · rw [if_neg hc, hb]
  · rw [if_neg hc, hb, Spec.mean_ys_of_line hne hline, X.fin_inj]; ring

example : (Regression.run (finOps2 [.push (0, 1), .push (2, 7)]) : Regression 64 (E ε)).at' (X.fin 10)
    = X.fin (3 * 10 + 1) := by
  have e : sinceClear [.push (0, 1), .push (2, 7)] = ([(0, 1), (2, 7)] : List (ℝ × ℝ)) := rfl
  exact (C13_exact_line _ 3 1 (by rw [e]; simp) (by rw [e]; simp; norm_num)
    (by rw [e]; exact ⟨(0, 1), by simp, (2, 7), by simp, by norm_num⟩)).2 10

/-! ### C14 -/

/-- C14: `trend::value()` is three times the mean minus twice the mean of the running means. -/
theorem C14_trend (ops : List (Op ℝ)) (h : (sinceClear ops).length < 2 ^ w) :
    let xs := sinceClear ops
    (Trend.run (finOps ops) : Trend w (E ε)).value
      = X.fin (3 * Spec.mean xs - 2 * Spec.mean (Spec.runningMeans xs))
    ∧ (Trend.run (finOps ops) : Trend w (E ε)).size.toNat = xs.length := by
  intro xs
  rw [Trend.run_fin ops h]
  refine ⟨?_, toNat_ofNat_lt h⟩
  simp only [Trend.value, Mean.getMean, Exact.ofNat_eq, sub_fin, mul_fin, add_fin, X.fin_inj, xs]
  push_cast; ring

/-- C14: an arithmetic progression is predicted exactly. -/
theorem C14_trend_linear (a d : ℝ) (n : Nat) (hn : 1 ≤ n) (hw : n < 2 ^ w) :
    (Trend.run (finOps ((List.range n).map fun k : ℕ => .push (a + k * d))) : Trend w (E ε)).value
      = X.fin (a + (n - 1) * d) := by
  have e : ((List.range n).map fun k : ℕ => Op.push (a + k * d))
      = ((List.range n).map fun k : ℕ => a + k * d).map Op.push := by
    rw [List.map_map]; rfl
  have hsc : sinceClear ((List.range n).map fun k : ℕ => Op.push (a + k * d))
      = (List.range n).map fun k : ℕ => a + k * d := by rw [e, sinceClear_pushes]
  rw [(C14_trend _ (by rw [hsc]; simpa using hw)).1, hsc, Spec.runningMeans_progression,
    Spec.mean_progression _ _ hn, Spec.mean_progression _ _ hn, X.fin_inj]
  ring

example : (Trend.run (finOps ((List.range 4).map fun k : ℕ => .push (10 + k * 3))) : Trend 64 (E ε)).value
    = X.fin (10 + (4 - 1) * 3) := by
  have := C14_trend_linear (w := 64) (ε := ε) 10 3 4 (by norm_num) (by norm_num)
  exact_mod_cast this

end Verif.Props
