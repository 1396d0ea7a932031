import Verif.Proofs.Window
import Verif.Proofs.Cumulative
import Verif.Proofs.Rounding
import Verif.Model.Decay
/-
C57: queries outside their documented preconditions.  The only assumption on the arithmetic is that the number 0
is not changed by rounding.
-/
namespace Verif.Props
open Scalar

variable {w N : Nat} {F : Fmt}

theorem toNat_size_zero : (0 : SizeT w).toNat = 0 := BitVec.toNat_zero

theorem div_zero_not_finite (x : X F) : ¬ X.IsFin (x / X.fin 0) := by
  rintro ⟨r, hr⟩
  cases x with
  | fin a =>
    rw [X.div_fin_zero] at hr
    unfold X.signedInf at hr
    split_ifs at hr
  | pinf =>
    change (if (0 : ℝ) < 0 then X.ninf else X.pinf : X F) = X.fin r at hr
    rw [if_neg (lt_irrefl _)] at hr; cases hr
  | ninf =>
    change (if (0 : ℝ) < 0 then X.pinf else X.ninf : X F) = X.fin r at hr
    rw [if_neg (lt_irrefl _)] at hr; cases hr
  | nan => cases hr

/-- 0 is a number in exact arithmetic and in every binary format. -/
theorem C57_zero (ε : ℝ) : (ofNat 0 : Exact.E ε) = X.fin 0
    ∧ (ofNat 0 : X binary64) = X.fin 0 ∧ (ofNat 0 : X binary32) = X.fin 0 :=
  ⟨by simp, binary64_binary.ofNat_zero, binary32_binary.ofNat_zero⟩

/-- C57, empty cumulative filters (new, or after `clear` with whatever was pushed before): variance(), the
correlation coefficient, slope() and at() are NaN. -/
theorem C57_empty_cumulative (h0 : (ofNat 0 : X F) = X.fin 0) (ops : List (Op (X F))) (h : sinceClear ops = [])
    (ops2 : List (Op (X F × X F))) (h2 : sinceClear ops2 = []) (x : X F) :
    (Cumulative.Variance.run ops : Cumulative.Variance w (X F)).variance = X.nan
    ∧ (Cumulative.Correlation.run ops2 : Cumulative.Correlation w (X F)).value = X.nan
    ∧ (Cumulative.Regression.run ops2 : Cumulative.Regression w (X F)).slope = X.nan
    ∧ (Cumulative.Regression.run ops2 : Cumulative.Regression w (X F)).at' x = X.nan := by
  rw [Cumulative.Variance.run_eq, Cumulative.Correlation.run_eq, Cumulative.Regression.run_eq, h, h2]
  simp only [List.foldl_nil]
  have hc : (ofSize (0 : SizeT w) : X F) = X.fin 0 := by rw [ofSize, toNat_size_zero, h0]
  have hv : (Cumulative.Variance.init : Cumulative.Variance w (X F)).variance = X.nan := by
    show ofNat 0 / ofSize (0 : SizeT w) = X.nan
    rw [hc, h0, X.zero_div_zero]
  have hco : (Cumulative.Comoment.init : Cumulative.Comoment w (X F)).variance = X.fin 0 := by
    show (if (0 : SizeT w) > 0 then _ else ofNat 0) = X.fin 0
    rw [if_neg (BitVec.lt_irrefl _), h0]
  have hs : (Cumulative.Regression.init : Cumulative.Regression w (X F)).slope = X.nan := by
    show (if beq (Cumulative.Variance.init : Cumulative.Variance w (X F)).variance (ofNat 0) = true then ofNat 0
      else (Cumulative.Comoment.init : Cumulative.Comoment w (X F)).variance / (Cumulative.Variance.init : Cumulative.Variance w (X F)).variance) = X.nan
    rw [hv, hco]
    have : beq (X.nan : X F) (ofNat 0) = false := rfl
    rw [this, if_neg (by simp)]; rfl
  refine ⟨hv, ?_, hs, ?_⟩
  · show (if lt ((Cumulative.Variance.init : Cumulative.Variance w (X F)).variance * (Cumulative.Variance.init : Cumulative.Variance w (X F)).variance) eps = true
      then ofNat 1 else (Cumulative.Comoment.init : Cumulative.Comoment w (X F)).variance
        / sqrt ((Cumulative.Variance.init : Cumulative.Variance w (X F)).variance * (Cumulative.Variance.init : Cumulative.Variance w (X F)).variance)) = X.nan
    rw [hv, hco]
    have : lt ((X.nan * X.nan : X F)) eps = false := rfl
    rw [this, if_neg (by simp)]; rfl
  · show (ofNat 0 - (Cumulative.Regression.init : Cumulative.Regression w (X F)).slope * (ofNat 0 - x) : X F) = X.nan
    rw [hs, h0]
    have : (X.nan * (X.fin 0 - x) : X F) = X.nan := by
      generalize (X.fin 0 - x : X F) = y
      cases y <;> rfl
    rw [this]; rfl

/-- C57, one value (any value): the unbiased mean and variance are NaN or infinite. -/
theorem C57_one_value (h0 : (ofNat 0 : X F) = X.fin 0) (ops : List (Op (X F))) (x : X F) (h : sinceClear ops = [x]) :
    ¬ X.IsFin (Cumulative.Mean.run ops : Cumulative.Mean w (X F)).unbiasedMean
    ∧ ¬ X.IsFin (Cumulative.Variance.run ops : Cumulative.Variance w (X F)).unbiasedVariance := by
  rw [Cumulative.Mean.run_eq, Cumulative.Variance.run_eq, h]
  have hc : (ofSize ((0 : SizeT w) + 1 - 1) : X F) = X.fin 0 := by
    rw [BitVec.add_sub_cancel, ofSize, toNat_size_zero, h0]
  constructor
  · show ¬ X.IsFin (_ / ofSize ((0 : SizeT w) + 1 - 1))
    rw [hc]; exact div_zero_not_finite _
  · show ¬ X.IsFin (_ / ofSize ((0 : SizeT w) + 1 - 1))
    rw [hc]; exact div_zero_not_finite _

/-- C57: `at()` of an empty window regression is NaN. -/
theorem C57_empty_window (hN : 1 ≤ N) (h0 : (ofNat 0 : X F) = X.fin 0) (ops : List (Op (X F × X F)))
    (h : sinceClear ops = []) (x : X F) :
    ∃ s : Window.Regression N (X F), Window.Regression.run ops = some s ∧ s.at' x = X.nan := by
  refine ⟨Window.Regression.init, ?_, ?_⟩
  · rw [Window.Regression.run_eq hN, h]; rfl
  · show (ofNat 0 / ofNat 0 - (Window.Regression.init : Window.Regression N (X F)).slope * (ofNat 0 - x) : X F) = X.nan
    rw [h0, X.zero_div_zero]
    generalize ((Window.Regression.init : Window.Regression N (X F)).slope * (X.fin 0 - x) : X F) = y
    cases y <;> rfl

/-- Not covered by NaN: on an empty filter `mean()` is 0, and so are the unbiased statistics, because
`count - 1` wraps around to the largest `size_t`. -/
theorem C57_empty_zero (h0 : (ofNat 0 : X F) = X.fin 0) {d : ℝ} (hd : d ≠ 0)
    (hmax : (ofNat (2 ^ w - 1) : X F) = X.fin d) (ops : List (Op (X F))) (h : sinceClear ops = []) :
    (Cumulative.Mean.run ops : Cumulative.Mean w (X F)).getMean = X.fin 0
    ∧ (Cumulative.Mean.run ops : Cumulative.Mean w (X F)).unbiasedMean = X.fin 0
    ∧ (Cumulative.Variance.run ops : Cumulative.Variance w (X F)).unbiasedVariance = X.fin 0 := by
  have hround : (X.round 0 : X F) = X.fin 0 := by rw [← h0, X.ofNat_eq, Nat.cast_zero]
  have hm : (ofSize ((0 : SizeT w) - 1) : X F) = X.fin d := by
    rw [ofSize, ← hmax]
    congr 1
    have : (0 : SizeT w) - 1 = BitVec.allOnes w := by
      rw [← BitVec.neg_one_eq_allOnes]; exact BitVec.zero_sub _
    rw [this, BitVec.toNat_allOnes]
  rw [Cumulative.Mean.run_eq, Cumulative.Variance.run_eq, h]
  refine ⟨h0, ?_, ?_⟩
  · show (ofNat 0 * ofSize (0 : SizeT w) / ofSize ((0 : SizeT w) - 1) : X F) = X.fin 0
    rw [hm, ofSize, toNat_size_zero, h0, X.mul_fin, mul_zero, hround, X.div_fin_of_ne _ hd, zero_div, hround]
  · show (ofNat 0 / ofSize ((0 : SizeT w) - 1) : X F) = X.fin 0
    rw [hm, h0, X.div_fin_of_ne _ hd, zero_div, hround]

/-- A new decaying filter reports 0 for everything; so does the mean after `clear`. -/
theorem C57_new_decay (h0 : (ofNat 0 : X F) = X.fin 0) (f g h i : X F) (ops : List (Op (X F))) :
    (Decay.Kurtosis.init f g h i).mean = X.fin 0 ∧ (Decay.Kurtosis.init f g h i).variance = X.fin 0
    ∧ (Decay.Kurtosis.init f g h i).skewness = X.fin 0 ∧ (Decay.Kurtosis.init f g h i).kurtosis = X.fin 0
    ∧ (Decay.Kurtosis.run f g h i (ops ++ [.clear])).mean = X.fin 0 := by
  have hlt : lt (ofNat 0 : X F) (ofNat 0) = false := by
    rw [h0, X.lt_fin]; simp
  have hm : ∀ s : Decay.Mean (X F), s.normalization = ofNat 0 → s.mean = X.fin 0 := by
    intro s hs
    unfold Decay.Mean.mean
    rw [hs, hlt]; exact h0
  refine ⟨hm _ rfl, ?_, ?_, ?_, ?_⟩
  · show (if lt (ofNat 0 : X F) (ofNat 0) then _ else _) = _
    rw [hlt]; exact h0
  · show (if lt (ofNat 0 : X F) (ofNat 0) then _ else _) = _
    rw [hlt]; exact h0
  · show (if lt (ofNat 0 : X F) (ofNat 0) then _ else _) = _
    rw [hlt]; exact h0
  · unfold Decay.Kurtosis.run
    rw [runOps_append]
    exact hm _ rfl

example : (Decay.Kurtosis.init (X.fin 1) (X.fin 1) (X.fin 1) (X.fin 1) : Decay.Kurtosis (X binary64)).variance = X.fin 0 :=
  (C57_new_decay (C57_zero 0).2.1 _ _ _ _ []).2.1

/-- A `double` filter that has been used and cleared; then it is used normally again. -/
example : (Cumulative.Variance.run [.push (X.fin 3), .push X.pinf, .clear] : Cumulative.Variance 64 (X binary64)).variance = X.nan :=
  (C57_empty_cumulative (C57_zero 0).2.1 _ rfl [] rfl X.nan).1

example : ¬ X.IsFin (Cumulative.Mean.run [.push (X.fin 3)] : Cumulative.Mean 64 (X binary64)).unbiasedMean :=
  (C57_one_value (C57_zero 0).2.1 _ (X.fin 3) rfl).1

example : ∃ s : Window.Regression 4 (X binary64), Window.Regression.run [.push (X.fin 3, X.nan), .clear] = some s
    ∧ s.at' (X.fin 1) = X.nan := C57_empty_window (by norm_num) (C57_zero 0).2.1 _ rfl _

example (ε : ℝ) : (Cumulative.Mean.run [] : Cumulative.Mean 64 (Exact.E ε)).unbiasedMean = X.fin 0 :=
  (C57_empty_zero (C57_zero ε).1 (d := (2 ^ 64 - 1 : Nat)) (by norm_num) (by simp) [] rfl).2.1

end Verif.Props
