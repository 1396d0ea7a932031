import Verif.Proofs.Special
import Verif.Proofs.Cumulative
import Verif.Proofs.Window
import Verif.Proofs.Impulse
import Verif.Proofs.Double
import Verif.Props.Window
import Verif.Props.Decay
import Verif.Props.Interim
/-
C82, C83, C84: special values in the data.
-/
namespace Verif.Props
open Scalar Exact

variable {F : Fmt} {p : Nat} {emin : Int} {w N : Nat}

/-! ### C82: cumulative filters -/

namespace Cum
open Cumulative

/-- All sums of the kurtosis filter are NaN. -/
def AllNan (s : Kurtosis w (X F)) : Prop :=
  s.super.super.super.mean = X.nan ∧ s.super.super.sumVariance = X.nan ∧ s.super.sumSkewness = X.nan
    ∧ s.sumKurtosis = X.nan

theorem allNan_bad (s : Kurtosis w (X F)) (x : X F) (h : x = X.nan) : AllNan (s.push x) := by
  subst h
  simp [AllNan, Kurtosis.push, Skewness.push, Variance.push, Mean.push, Mean.getMean, Variance.getMean,
    Skewness.getMean]

theorem allNan_push (s : Kurtosis w (X F)) (x : X F) (h : AllNan s) : AllNan (s.push x) := by
  obtain ⟨h1, h2, h3, h4⟩ := h
  simp [AllNan, Kurtosis.push, Skewness.push, Variance.push, Mean.push, Mean.getMean, Variance.getMean,
    Skewness.getMean, h1, h2, h3, h4]

theorem allNan_run {ops : List (Op (X F))} (h : X.nan ∈ sinceClear ops) :
    AllNan (Kurtosis.run ops : Kurtosis w (X F)) := by
  rw [Kurtosis.run_eq]
  exact foldl_of_mem allNan_bad allNan_push ⟨_, h, rfl⟩ _

theorem comoment_nan {ops : List (Op (X F × X F))}
    (h : ∃ q ∈ sinceClear ops, q.1 = X.nan ∨ q.2 = X.nan) :
    (Comoment.run ops : Comoment w (X F)).center = X.nan := by
  rw [Comoment.run_eq]
  refine foldl_of_mem (P := fun s : Comoment w (X F) => s.center = X.nan) ?_ ?_ h _
  · rintro s ⟨x, y⟩ (h | h)
    · simp only at h; subst h; simp [Comoment.push]
    · simp only at h; subst h; simp [Comoment.push]
  · intro s q h
    simp [Comoment.push, h]

theorem variance_nan {xs : List (X F)} (h : X.nan ∈ xs) :
    ((xs.foldl Variance.push Variance.init : Variance w (X F)).super.mean = X.nan)
    ∧ (xs.foldl Variance.push Variance.init : Variance w (X F)).sumVariance = X.nan := by
  refine foldl_of_mem (P := fun s : Variance w (X F) => s.super.mean = X.nan ∧ s.sumVariance = X.nan)
    (bad := fun x => x = X.nan) ?_ ?_ ⟨_, h, rfl⟩ _
  · rintro s x rfl
    simp [Variance.push, Mean.push, Mean.getMean]
  · rintro s x ⟨h1, h2⟩
    simp [Variance.push, Mean.push, Mean.getMean, h1, h2]

theorem comoment_size {α : Type} [Scalar α] (ps : List (α × α)) :
    (ps.foldl Comoment.push Comoment.init : Comoment w α).size = BitVec.ofNat w ps.length := by
  induction ps using List.reverseRecOn with
  | nil => rfl
  | append_singleton ps q ih =>
    rw [List.foldl_append, List.length_append, List.length_singleton, BitVec.ofNat_add]
    show (ps.foldl Comoment.push Comoment.init).size + 1 = _
    rw [ih]; rfl

theorem size_pos {n : Nat} (h0 : 0 < n) (h : n < 2 ^ w) : BitVec.ofNat w n > 0 := by
  rw [gt_iff_lt, BitVec.lt_def, BitVec.toNat_ofNat, Nat.mod_eq_of_lt h]
  simpa using h0

end Cum

open Cumulative in
/-- C82, cumulative moments: if a NaN has been pushed since the last `clear` every result is NaN, in every
format and whatever else was pushed.  The unbiased skewness and kurtosis of fewer than 2 and 4 values are
the constant 0. -/
theorem C82_cumulative_partial (ops : List (Op (X F))) (h : X.nan ∈ sinceClear ops) :
    (Mean.run ops : Mean w (X F)).getMean = X.nan
    ∧ (Mean.run ops : Mean w (X F)).unbiasedMean = X.nan
    ∧ (Variance.run ops : Variance w (X F)).variance = X.nan
    ∧ (Variance.run ops : Variance w (X F)).unbiasedVariance = X.nan
    ∧ (Skewness.run ops : Skewness w (X F)).skewness = X.nan
    ∧ (¬ (Skewness.run ops : Skewness w (X F)).size < 2 →
        (Skewness.run ops : Skewness w (X F)).unbiasedSkewness = X.nan)
    ∧ (Kurtosis.run ops : Kurtosis w (X F)).kurtosis = X.nan
    ∧ (¬ (Kurtosis.run ops : Kurtosis w (X F)).size < 4 →
        (Kurtosis.run ops : Kurtosis w (X F)).unbiasedKurtosis = X.nan) := by
  obtain ⟨h1, h2, h3, h4⟩ := Cum.allNan_run (w := w) h
  simp only [Kurtosis.run_super, Skewness.run_super, Variance.run_super] at h1 h2 h3
  have hs : (Skewness.run ops : Skewness w (X F)).skewness = X.nan := by
    simp [Skewness.skewness, h3]
  have hk : (Kurtosis.run ops : Kurtosis w (X F)).kurtosis = X.nan := by
    simp [Kurtosis.kurtosis, h4]
  refine ⟨h1, ?_, ?_, ?_, hs, fun hn => ?_, hk, fun hn => ?_⟩
  · simp [Mean.unbiasedMean, h1]
  · simp [Variance.variance, h2]
  · simp [Variance.unbiasedVariance, h2]
  · simp only [Skewness.unbiasedSkewness, hs, h3, if_neg hn]; simp
  · simp only [Kurtosis.unbiasedKurtosis, hk, h4, if_neg hn]; simp

open Cumulative in
/-- C82, cumulative pair filters: a NaN in either coordinate since the last `clear`. -/
theorem C82_pairs_partial (ops : List (Op (X F × X F)))
    (h : ∃ q ∈ sinceClear ops, q.1 = X.nan ∨ q.2 = X.nan) (hw : (sinceClear ops).length < 2 ^ w) :
    (Comoment.run ops : Comoment w (X F)).variance = X.nan
    ∧ (1 < (sinceClear ops).length → (Comoment.run ops : Comoment w (X F)).unbiasedVariance = X.nan)
    ∧ (Correlation.run ops : Correlation w (X F)).value = X.nan
    ∧ (∀ pos, (Regression.run ops : Regression w (X F)).at' pos = X.nan)
    ∧ ((∃ q ∈ sinceClear ops, q.1 = X.nan) → (Regression.run ops : Regression w (X F)).slope = X.nan)
    ∧ (beq (Regression.run ops : Regression w (X F)).x.variance (ofNat 0) = false →
        (Regression.run ops : Regression w (X F)).slope = X.nan) := by
  have hc := Cum.comoment_nan (w := w) h
  have hlen : 0 < (sinceClear ops).length := by
    obtain ⟨q, hq, -⟩ := h; exact List.length_pos_of_mem hq
  have hsz : (Comoment.run ops : Comoment w (X F)).size = BitVec.ofNat w (sinceClear ops).length := by
    rw [Comoment.run_eq, Cum.comoment_size]
  have hpos := Cum.size_pos (w := w) hlen hw
  have hv : (Comoment.run ops : Comoment w (X F)).variance = X.nan := by
    rw [Comoment.variance, hsz, if_pos hpos, hc, X.nan_div]
  have hx : (∃ q ∈ sinceClear ops, q.1 = X.nan) →
      X.nan ∈ (sinceClear ops).map Prod.fst := by
    rintro ⟨q, hq, e⟩; exact List.mem_map.2 ⟨q, hq, e⟩
  have hy : (∃ q ∈ sinceClear ops, q.2 = X.nan) →
      X.nan ∈ (sinceClear ops).map Prod.snd := by
    rintro ⟨q, hq, e⟩; exact List.mem_map.2 ⟨q, hq, e⟩
  have hsl : (∃ q ∈ sinceClear ops, q.1 = X.nan) →
      (Regression.run ops : Regression w (X F)).slope = X.nan := by
    intro h
    rw [Regression.run_eq, Regression.fold_any]
    simp [Regression.slope, Variance.variance, (Cum.variance_nan (hx h)).2]
  refine ⟨hv, fun h1 => ?_, ?_, fun pos => ?_, hsl, fun hb => ?_⟩
  · have : BitVec.ofNat w (sinceClear ops).length > 1 := by
      rw [gt_iff_lt, BitVec.lt_def, BitVec.toNat_ofNat, Nat.mod_eq_of_lt hw]
      refine lt_of_le_of_lt ?_ h1
      show (BitVec.ofNat w 1).toNat ≤ 1
      rw [BitVec.toNat_ofNat]; exact Nat.mod_le _ _
    rw [Comoment.unbiasedVariance, hsz, if_pos this, hc, X.nan_div]
  · have e : (Correlation.run ops : Correlation w (X F)).x.variance
        * (Correlation.run ops : Correlation w (X F)).y.variance = X.nan := by
      rw [Correlation.run_eq, Correlation.fold_any]
      obtain ⟨q, hq, e | e⟩ := h
      · simp [Variance.variance, (Cum.variance_nan (w := w) (hx ⟨q, hq, e⟩)).2]
      · simp [Variance.variance, (Cum.variance_nan (w := w) (hy ⟨q, hq, e⟩)).2]
    simp only [Correlation.value, e]; simp
  · obtain ⟨q, hq, e | e⟩ := h
    · rw [Regression.at', hsl ⟨q, hq, e⟩]; simp
    · rw [Regression.at', Regression.run_eq, Regression.fold_any]
      simp [Variance.getMean, Mean.getMean, (Cum.variance_nan (w := w) (hy ⟨q, hq, e⟩)).1]
  · have e : (Regression.run ops : Regression w (X F)).co = Comoment.run ops := by
      rw [Regression.run_eq, Regression.fold_any, Comoment.run_eq]
    rw [Regression.slope, hb, e, hv]
    simp

open Cumulative in
/-- C82, trend. -/
theorem C82_trend_partial (ops : List (Op (X F))) (h : X.nan ∈ sinceClear ops) :
    (Trend.run ops : Trend w (X F)).value = X.nan := by
  have : (Trend.run ops : Trend w (X F)).center.mean = X.nan := by
    rw [Trend.run_eq]
    refine foldl_of_mem (P := fun s : Trend w (X F) => s.center.mean = X.nan)
      (bad := fun x => x = X.nan) ?_ ?_ ⟨_, h, rfl⟩ _
    · rintro s x rfl; simp [Trend.push, Mean.push]
    · intro s x h; simp [Trend.push, Mean.push, h]
  simp [Trend.value, Mean.getMean, this]

/-- NaN between finite values; `clear` ends it. -/
example : (Cumulative.Kurtosis.run [.push (X.fin 1), .push X.nan, .push (X.fin 2)]
    : Cumulative.Kurtosis 64 (X binary64)).kurtosis = X.nan :=
  (C82_cumulative_partial _ (by simp [sinceClear])).2.2.2.2.2.2.1

example : (Cumulative.Correlation.run [.push (X.fin 1, X.fin 1), .push (X.fin 2, X.nan), .push (X.fin 2, X.fin 5)]
    : Cumulative.Correlation 64 (X binary64)).value = X.nan :=
  (C82_pairs_partial _ ⟨(X.fin 2, X.nan), by simp [sinceClear]⟩ (by simp [sinceClear])).2.2.1

theorem double_zero : (ofNat 0 : X binary64) = X.fin 0 := binary64_binary.ofNat_zero

/-! ### C82: window filters -/

namespace Win
open Window

theorem variance_nan (hN : 1 ≤ N) {ops : List (Op (X F))} (h : X.nan ∈ sinceClear ops) :
    ∃ s : Variance N (X F), Variance.run ops = some s ∧ s.super.mean = X.nan ∧ s.sumVariance = X.nan := by
  rw [Variance.run_eq hN]
  refine foldl_bind_of_mem (P := fun s : Variance N (X F) => s.super.mean = X.nan ∧ s.sumVariance = X.nan)
    (bad := fun x => x = X.nan) (fun s x => ?_) ?_ ?_ ⟨_, h, rfl⟩ _
  · obtain ⟨s', h, -⟩ := Variance.push_some hN s x; exact ⟨s', h⟩
  · rintro s s' x rfl hs
    rw [Variance.push] at hs
    by_cases hf : s.super.full = true
    · simp only [if_pos hf] at hs
      cases hw : s.super.window.front with
      | none => rw [hw] at hs; simp at hs
      | some f => rw [hw] at hs; simp only [Option.some.injEq] at hs; subst hs; simp [Variance.delta]
    · simp only [if_neg hf, Option.some.injEq] at hs; subst hs; simp [Variance.delta]
  · rintro s s' x ⟨h1, h2⟩ hs
    rw [Variance.push] at hs
    by_cases hf : s.super.full = true
    · simp only [if_pos hf] at hs
      cases hw : s.super.window.front with
      | none => rw [hw] at hs; simp at hs
      | some f => rw [hw] at hs; simp only [Option.some.injEq] at hs; subst hs; simp [h1, h2]
    · simp only [if_neg hf, Option.some.injEq] at hs; subst hs; simp [h1, h2]

theorem comoment_nan (hN : 1 ≤ N) {ops : List (Op (X F × X F))} (bad : X F × X F → Prop)
    (hb : ∀ q, bad q → q.1 = X.nan ∨ q.2 = X.nan) (h : ∃ q ∈ sinceClear ops, bad q) :
    ∃ s : Comoment N (X F), Comoment.run ops = some s ∧ s.sumXY = X.nan
      ∧ ((∀ q, bad q → q.2 = X.nan) → s.sumY = X.nan) := by
  rw [Comoment.run_eq hN]
  refine foldl_bind_of_mem (P := fun s : Comoment N (X F) => s.sumXY = X.nan ∧
    ((∀ q, bad q → q.2 = X.nan) → s.sumY = X.nan))
    (bad := bad) (fun s x => ?_) ?_ ?_ h _
  · obtain ⟨s', h, -⟩ := Comoment.push_some hN s x; exact ⟨s', h⟩
  · rintro s s' ⟨x, y⟩ hq hs
    have hm : x * y = X.nan := by
      rcases hb _ hq with e | e <;> simp only at e <;> rw [e] <;> simp
    rw [Comoment.push] at hs
    by_cases hf : s.window.full = true
    · simp only [if_pos hf] at hs
      cases hw : s.window.front with
      | none => rw [hw] at hs; simp at hs
      | some f =>
        rw [hw] at hs; simp only [Option.some.injEq] at hs; subst hs
        refine ⟨by simp [hm], fun h => ?_⟩
        have := h _ hq; simp only at this; simp [this]
    · simp only [if_neg hf, Option.some.injEq] at hs; subst hs
      refine ⟨by simp [hm], fun h => ?_⟩
      have := h _ hq; simp only at this; simp [this]
  · rintro s s' ⟨x, y⟩ ⟨h1, h2⟩ hs
    rw [Comoment.push] at hs
    by_cases hf : s.window.full = true
    · simp only [if_pos hf] at hs
      cases hw : s.window.front with
      | none => rw [hw] at hs; simp at hs
      | some f =>
        rw [hw] at hs; simp only [Option.some.injEq] at hs; subst hs
        exact ⟨by simp [h1], fun h => by simp [h2 h]⟩
    · simp only [if_neg hf, Option.some.injEq] at hs; subst hs
      exact ⟨by simp [h1], fun h => by simp [h2 h]⟩

end Win

open Window in
/-- C82, window filters, the part that holds: `mean()` and the covariance are NaN. -/
theorem C82_window_partial (hN : 1 ≤ N) :
    (∀ ops : List (Op (X F)), X.nan ∈ sinceClear ops →
      ∃ s : Mean N (X F), Mean.run ops = some s ∧ s.getMean = X.nan)
    ∧ (∀ ops : List (Op (X F × X F)), (∃ q ∈ sinceClear ops, q.1 = X.nan ∨ q.2 = X.nan) →
      ∃ s : Comoment N (X F), Comoment.run ops = some s ∧ s.variance = X.nan
        ∧ (1 < s.size → s.unbiasedVariance = X.nan)) := by
  constructor
  · intro ops h
    obtain ⟨s, hs, h1, h2⟩ := Win.variance_nan hN h
    refine ⟨s.super, ?_, h1⟩
    rw [← Variance.run_super hN, hs]; rfl
  · intro ops h
    obtain ⟨s, hs, h1, -⟩ := Win.comoment_nan (N := N) hN _ (fun q hq => hq) h
    obtain ⟨s', hs', hi⟩ := Comoment.run_items (N := N) hN ops
    rw [hs] at hs'; cases hs'
    have hsz : 0 < s.size := by
      obtain ⟨q, hq, -⟩ := h
      have := List.length_pos_of_mem hq
      rw [Comoment.size, Ring.size, hi, Spec.length_lastN]; omega
    have hc : s.cosum = X.nan := by simp [Comoment.cosum, h1]
    refine ⟨s, hs, ?_, fun h1 => ?_⟩
    · rw [Comoment.variance, if_pos hsz, hc, X.nan_div]
    · rw [Comoment.unbiasedVariance, if_pos h1, hc, X.nan_div]

open Window in
/-- C82 is violated by the window variance: from a NaN until the next `clear` `variance()` and
`unbiased_variance()` are 0, whatever else is pushed, because `std::max(0, NaN)` is 0. -/
theorem C82_window_variance_zero (hN : 1 ≤ N) (ops : List (Op (X F))) (h : X.nan ∈ sinceClear ops) :
    ∃ s : Variance N (X F), Variance.run ops = some s
      ∧ s.getMean = X.nan ∧ s.variance = ofNat 0 ∧ s.unbiasedVariance = ofNat 0 := by
  obtain ⟨s, hs, h1, h2⟩ := Win.variance_nan hN h
  exact ⟨s, hs, h1, by simp [Variance.variance, h2], by simp [Variance.unbiasedVariance, h2]⟩

open Window in
/-- The regression filter consists of the covariance filter of the pairs and the variance filter of the
first coordinates, in any arithmetic. -/
theorem Win.regression_parts {α : Type} [Scalar α] (hN : 1 ≤ N) (ps : List (α × α)) :
    ∃ s : Regression N α,
      ps.foldl (fun s q => s.bind (Regression.push · q)) (some Regression.init) = some s
      ∧ ps.foldl (fun s q => s.bind (Comoment.push · q)) (some Comoment.init) = some s.covariance
      ∧ (ps.map Prod.fst).foldl (fun s x => s.bind (Variance.push · x)) (some Variance.init)
          = some s.xMoment := by
  induction ps using List.reverseRecOn with
  | nil => exact ⟨_, rfl, rfl, rfl⟩
  | append_singleton ps q ih =>
    obtain ⟨s, h1, h2, h3⟩ := ih
    obtain ⟨c, hc, -⟩ := Comoment.push_some hN s.covariance q
    obtain ⟨v, hv, -⟩ := Variance.push_some hN s.xMoment q.1
    refine ⟨⟨c, v⟩, ?_, ?_, ?_⟩
    · rw [List.foldl_append, h1]; simp only [List.foldl_cons, List.foldl_nil, Option.bind_some, Regression.push, hc, hv]
    · rw [List.foldl_append, h2]; exact hc
    · rw [List.map_append, List.foldl_append, h3]; exact hv

open Window in
/-- C82 is violated by the window regression: from a NaN in the first coordinate until the next `clear`
the slope is 0. -/
theorem C82_window_slope_zero (h0 : (ofNat 0 : X F) = X.fin 0) (hN : 1 ≤ N) (ops : List (Op (X F × X F)))
    (h : ∃ q ∈ sinceClear ops, q.1 = X.nan) :
    ∃ s : Regression N (X F), Regression.run ops = some s ∧ s.slope = X.fin 0 := by
  obtain ⟨s, h1, h2, h3⟩ := Win.regression_parts (N := N) hN (sinceClear ops)
  have hx : X.nan ∈ sinceClear (((sinceClear ops).map Prod.fst).map Op.push) := by
    rw [sinceClear_pushes]
    obtain ⟨q, hq, e⟩ := h; exact List.mem_map.2 ⟨q, hq, e⟩
  obtain ⟨v, hv, -, hv2⟩ := Win.variance_nan (N := N) hN hx
  rw [Variance.run_eq hN, sinceClear_pushes, h3] at hv
  cases hv
  have e : s.xMoment.variance = X.fin 0 := by simp [Variance.variance, hv2, h0]
  refine ⟨s, by rw [Regression.run_eq hN, h1], ?_⟩
  rw [Regression.slope, e, h0]
  simp [X.beq_fin]

open Window in
/-- C82, window regression, the part that holds: `at()` is NaN, and so is the slope if only the second
coordinate had a NaN and the variance of the first is not 0. -/
theorem C82_window_regression_partial (hN : 1 ≤ N) (ops : List (Op (X F × X F)))
    (h : ∃ q ∈ sinceClear ops, q.1 = X.nan ∨ q.2 = X.nan) :
    ∃ s : Regression N (X F), Regression.run ops = some s ∧ (∀ pos, s.at' pos = X.nan)
      ∧ (beq s.xMoment.variance (ofNat 0) = false → s.slope = X.nan) := by
  obtain ⟨s, h1, h2, h3⟩ := Win.regression_parts (N := N) hN (sinceClear ops)
  obtain ⟨c, hc, hc2, -⟩ := (C82_window_partial (F := F) hN).2 ops h
  rw [Comoment.run_eq hN, h2] at hc
  cases hc
  refine ⟨s, by rw [Regression.run_eq hN, h1], fun pos => ?_, fun hb => ?_⟩
  · obtain ⟨q, hq, e | e⟩ := h
    · have hx : X.nan ∈ sinceClear (((sinceClear ops).map Prod.fst).map Op.push) := by
        rw [sinceClear_pushes]; exact List.mem_map.2 ⟨q, hq, e⟩
      obtain ⟨v, hv, hm, -⟩ := Win.variance_nan (N := N) hN hx
      rw [Variance.run_eq hN, sinceClear_pushes, h3] at hv
      cases hv
      simp [Regression.at', Variance.getMean, Mean.getMean, hm]
    · obtain ⟨d, hd, -, hy⟩ := Win.comoment_nan (N := N) hN (fun q => q.2 = X.nan) (fun q => Or.inr) ⟨q, hq, e⟩
      rw [Comoment.run_eq hN, h2] at hd
      cases hd
      simp [Regression.at', hy (fun q => id)]
  · rw [Regression.slope, hb, hc2]; simp

/-- C82 for the window filters, as claimed: every result is NaN. -/
def C82_WindowStatement (F : Fmt) : Prop :=
  ∀ (N : Nat), 1 ≤ N → ∀ ops : List (Op (X F)), X.nan ∈ sinceClear ops →
    ∃ s : Window.Variance N (X F), Window.Variance.run ops = some s ∧ s.variance = X.nan

/-- Window of 3, values 1, NaN, 5: `variance()` is 0. -/
theorem C82_window_violated : ¬ C82_WindowStatement binary64 := by
  intro h
  obtain ⟨s, hs, hv⟩ := h 3 (by norm_num) [.push (X.fin 1), .push X.nan, .push (X.fin 5)] (by simp [sinceClear])
  obtain ⟨t, ht, -, hv', -⟩ := C82_window_variance_zero (F := binary64) (N := 3) (by norm_num)
    [.push (X.fin 1), .push X.nan, .push (X.fin 5)] (by simp [sinceClear])
  rw [hs] at ht; cases ht
  rw [hv, double_zero] at hv'
  cases hv'

example : ∃ s : Window.Mean 3 (X binary64),
    Window.Mean.run [.push (X.fin 1), .push X.nan, .push (X.fin 5), .push (X.fin 5), .push (X.fin 5)] = some s
      ∧ s.getMean = X.nan :=
  (C82_window_partial (by norm_num)).1 _ (by simp [sinceClear])

/-! ### C82: decay filters -/

namespace Dec
open Decay

/-- What holds of the kurtosis filter with factors `f g h i`; `bad` says that a NaN was pushed. -/
structure Inv (p : Nat) (emin : Int) (f g h i : ℝ) (bad : Prop) (s : Kurtosis (X F)) : Prop where
  f0 : s.super.super.super.meanFactor = X.fin f
  f1 : s.super.super.varFactor = X.fin g
  f2 : s.super.skewnessFactor = X.fin h
  f3 : s.kurtosisFactor = X.fin i
  n0 : NormW p emin f s.super.super.super.normalization
  n1 : NormW p emin g s.super.super.normalization
  n2 : NormW p emin h s.super.normalization
  n3 : NormW p emin i s.normalization
  nan : bad → NormP p emin f s.super.super.super.normalization ∧ NormP p emin g s.super.super.normalization
    ∧ NormP p emin h s.super.normalization ∧ NormP p emin i s.normalization
    ∧ s.super.super.super.sumMean = X.nan ∧ s.super.super.sumVariance = X.nan
    ∧ s.super.sumSkewness = X.nan ∧ s.sumKurtosis = X.nan

theorem inv_run (hF : F.Binary p emin) {f g h i : ℝ} (hf : 0 < f ∧ f ≤ 1 ∧ IsRep p emin f)
    (hg : 0 < g ∧ g ≤ 1 ∧ IsRep p emin g) (hh : 0 < h ∧ h ≤ 1 ∧ IsRep p emin h)
    (hi : 0 < i ∧ i ≤ 1 ∧ IsRep p emin i) (ops : List (Op (X F))) :
    Inv p emin f g h i (X.nan ∈ sinceClear ops)
      (Kurtosis.run (X.fin f) (X.fin g) (X.fin h) (X.fin i) ops) := by
  induction ops using List.reverseRecOn with
  | nil =>
    exact ⟨rfl, rfl, rfl, rfl, NormW.zero hF _, NormW.zero hF _, NormW.zero hF _, NormW.zero hF _,
      fun h => by simp [sinceClear] at h⟩
  | append_singleton ops op ih =>
    rw [Kurtosis.run, runOps_append]
    rw [Kurtosis.run] at ih
    set s := runOps (Kurtosis.init (X.fin f) (X.fin g) (X.fin h) (X.fin i)) Kurtosis.push Kurtosis.clear ops
    cases op with
    | clear =>
      rw [sinceClear_append_clear]
      exact ⟨ih.f0, ih.f1, ih.f2, ih.f3, NormW.zero hF _, ih.n1, ih.n2, ih.n3, fun h => by simp at h⟩
    | push x =>
      rw [sinceClear_append_push]
      have m0 : NormP p emin f (s.push x).super.super.super.normalization := by
        show NormP p emin f (s.super.super.super.normalization
          + s.super.super.super.meanFactor * (ofNat 1 - s.super.super.super.normalization))
        rw [ih.f0]; exact ih.n0.step hF hf.1 hf.2.1 hf.2.2
      have m1 : NormP p emin g (s.push x).super.super.normalization := by
        show NormP p emin g (s.super.super.normalization
          + s.super.super.varFactor * (ofNat 1 - s.super.super.normalization))
        rw [ih.f1]; exact ih.n1.step hF hg.1 hg.2.1 hg.2.2
      have m2 : NormP p emin h (s.push x).super.normalization := by
        show NormP p emin h (s.super.normalization + s.super.skewnessFactor * (ofNat 1 - s.super.normalization))
        rw [ih.f2]; exact ih.n2.step hF hh.1 hh.2.1 hh.2.2
      have m3 : NormP p emin i (s.push x).normalization := by
        show NormP p emin i (s.normalization + s.kurtosisFactor * (ofNat 1 - s.normalization))
        rw [ih.f3]; exact ih.n3.step hF hi.1 hi.2.1 hi.2.2
      refine ⟨ih.f0, ih.f1, ih.f2, ih.f3, m0.weak, m1.weak, m2.weak, m3.weak, fun hb => ⟨m0, m1, m2, m3, ?_⟩⟩
      have hl : Scalar.lt (ofNat 0) (s.super.super.super.push x).normalization = true := m0.lt hF hf.1
      have hsum : (s.super.super.super.push x).sumMean = X.nan := by
        rcases List.mem_append.1 hb with hb | hb
        · show s.super.super.super.sumMean + _ = _
          rw [(ih.nan hb).2.2.2.2.1, X.nan_add]
        · rw [List.mem_singleton] at hb
          subst hb
          simp [Mean.push]
      have hm : (s.super.super.super.push x).mean = X.nan := by
        rw [Mean.mean, if_pos hl, hsum, X.nan_div]
      refine ⟨hsum, ?_, ?_, ?_⟩
      · show s.super.super.sumVariance + _ * ((x - (s.super.super.super.push x).mean) * _ - _) = _
        rw [hm]; simp
      · show s.super.sumSkewness + _ * ((x - (s.super.super.super.push x).mean) * _ * _ - _) = _
        rw [hm]; simp
      · show s.sumKurtosis + _ * ((x - (s.super.super.super.push x).mean) * _ * _ * _ - _) = _
        rw [hm]; simp

end Dec

open Decay in
/-- C82, decay filters, with rounding: from a NaN until the next `clear` the mean and the variance are NaN
(the part that holds), but the skewness and the kurtosis are 0. -/
theorem C82_decay_partial (hF : F.Binary p emin) {f g h i : ℝ} (hf : 0 < f ∧ f ≤ 1 ∧ IsRep p emin f)
    (hg : 0 < g ∧ g ≤ 1 ∧ IsRep p emin g) (hh : 0 < h ∧ h ≤ 1 ∧ IsRep p emin h)
    (hi : 0 < i ∧ i ≤ 1 ∧ IsRep p emin i) (ops : List (Op (X F))) (hn : X.nan ∈ sinceClear ops) :
    let s : Kurtosis (X F) := Kurtosis.run (X.fin f) (X.fin g) (X.fin h) (X.fin i) ops
    s.mean = X.nan ∧ s.variance = X.nan ∧ s.skewness = X.fin 0 ∧ s.kurtosis = X.fin 0
    ∧ (Mean.run (X.fin f) ops : Mean (X F)).mean = X.nan := by
  intro s
  obtain ⟨m0, m1, m2, m3, s0, s1, s2, s3⟩ := (Dec.inv_run hF hf hg hh hi ops).nan hn
  have hm : s.super.super.super.mean = X.nan := by
    rw [Mean.mean, if_pos (m0.lt hF hf.1), s0, X.nan_div]
  have hv : s.super.super.variance = X.nan := by
    rw [Variance.variance, if_pos (m1.lt hF hg.1), s1, X.nan_div]
  have hv' : s.super.variance = X.nan := hv
  refine ⟨hm, hv, ?_, ?_, ?_⟩
  · show s.super.skewness = _
    rw [Skewness.skewness, if_pos (m2.lt hF hh.1), hv, ← hF.ofNat_zero]; simp
  · rw [Kurtosis.kurtosis, if_pos (m3.lt hF hi.1), hv', ← hF.ofNat_zero]; simp
  · rw [← kurtosis_super _ (X.fin g) (X.fin h) (X.fin i)]; exact hm

/-- C82 for the skewness and kurtosis of the decay filters, as claimed. -/
def C82_DecayStatement (F : Fmt) : Prop :=
  ∀ (f : ℝ), 0 < f → f ≤ 1 → ∀ ops : List (Op (X F)), X.nan ∈ sinceClear ops →
    (Decay.Kurtosis.run (X.fin f) (X.fin f) (X.fin f) (X.fin f) ops : Decay.Kurtosis (X F)).skewness = X.nan
    ∧ (Decay.Kurtosis.run (X.fin f) (X.fin f) (X.fin f) (X.fin f) ops : Decay.Kurtosis (X F)).kurtosis = X.nan

theorem C82_decay_violated : ¬ C82_DecayStatement binary64 := by
  intro h
  have h1 := h 1 one_pos le_rfl [.push X.nan, .push (X.fin 1)] (by simp [sinceClear])
  have r : (0 : ℝ) < 1 ∧ (1 : ℝ) ≤ 1 ∧ IsRep 53 (-1074) 1 := ⟨one_pos, le_rfl, binary64_binary.isRep_one⟩
  have h2 := C82_decay_partial (F := binary64) binary64_binary r r r r [.push X.nan, .push (X.fin 1)] (by simp [sinceClear])
  have h3 := h1.1.symm.trans h2.2.2.1
  cases h3

/-! ### C82: impulse response filters -/

namespace Impulse
open Verif.Impulse

theorem innerProduct_nan_acc {l cs : List (X F)} (h : l.length ≤ cs.length) :
    innerProduct X.nan l cs = some X.nan := by
  induction l generalizing cs with
  | nil => rfl
  | cons x l ih =>
    cases cs with
    | nil => simp at h
    | cons c cs => rw [innerProduct, X.nan_add]; exact ih (by simpa using h)

theorem innerProduct_nan {acc : X F} {l cs : List (X F)} (h : l.length ≤ cs.length) (hn : X.nan ∈ l) :
    innerProduct acc l cs = some X.nan := by
  induction l generalizing acc cs with
  | nil => simp at hn
  | cons x l ih =>
    cases cs with
    | nil => simp at h
    | cons c cs =>
      rw [innerProduct]
      rcases List.mem_cons.1 hn with hn | hn
      · rw [← hn, X.nan_mul, X.add_nan]; exact innerProduct_nan_acc (by simpa using h)
      · exact ih (by simpa using h) hn

end Impulse

/-- The value of the FIR filter after a push, in any arithmetic. -/
theorem fir_value {α : Type} [Scalar α] {cs : List α} (hc : cs ≠ []) (ops : List (Op α)) (x : α) :
    ∃ s : Impulse.Finite α, Impulse.Finite.run cs (ops ++ [.push x]) = some s
      ∧ Impulse.innerProduct (ofNat 0) ((sinceClear (ops ++ [.push x])).reverse.take cs.length) cs
          = some s.value := by
  have hP : 1 ≤ cs.length := List.length_pos_iff.2 hc
  obtain ⟨s, hs, h1, h2⟩ := Impulse.Finite.run_some hc ops
  have hd := Impulse.pushFront_take hP (sinceClear ops).reverse x
  obtain ⟨r, hr⟩ := Impulse.innerProduct_some (ofNat 0 : α)
    (l := (x :: (sinceClear ops).reverse).take cs.length) (cs := cs) (by simp)
  refine ⟨{ s with input := s.input.pushFront x, output := r }, ?_, ?_⟩
  · rw [Impulse.Finite.run, runOps_append]
    rw [Impulse.Finite.run] at hs
    rw [hs]
    show Impulse.Finite.push s x = _
    rw [Impulse.Finite.push, h1, h2, hd]
    simp only [hr, Option.map_some]
  · rw [sinceClear_append_push, List.reverse_append]
    exact hr

/-- C82, FIR: NaN as long as a NaN is among the last `P` inputs, even if its coefficient is 0. -/
theorem C82_fir_partial {cs : List (X F)} (hc : cs ≠ []) (ops : List (Op (X F))) (x : X F)
    (h : X.nan ∈ Spec.lastN cs.length (sinceClear (ops ++ [.push x]))) :
    ∃ s : Impulse.Finite (X F), Impulse.Finite.run cs (ops ++ [.push x]) = some s ∧ s.value = X.nan := by
  obtain ⟨s, hs, hv⟩ := fir_value hc ops x
  refine ⟨s, hs, ?_⟩
  have hm : X.nan ∈ (sinceClear (ops ++ [.push x])).reverse.take cs.length := by
    rw [List.take_reverse, List.mem_reverse]; exact h
  rw [Impulse.innerProduct_nan (by simp) hm] at hv
  exact (Option.some.inj hv).symm

/-- C82, IIR: NaN until the next `clear`. -/
theorem C82_iir_partial {as bs : List (X F)} (ha : as ≠ []) (hb : bs ≠ []) (c : X F) (ops : List (Op (X F)))
    (h : X.nan ∈ sinceClear ops) :
    ∃ s : Impulse.Infinite (X F), Impulse.Infinite.run as bs c ops = some s ∧ s.value = X.nan := by
  have key : ∀ ops : List (Op (X F)), ∃ s : Impulse.Infinite (X F), Impulse.Infinite.run as bs c ops = some s
      ∧ (X.nan ∈ sinceClear ops → ∃ t, s.outputWindow.items = X.nan :: t) := by
    intro ops
    induction ops using List.reverseRecOn with
    | nil => exact ⟨_, rfl, fun h => by simp [sinceClear] at h⟩
    | append_singleton ops op ih =>
      obtain ⟨s, hs, hn⟩ := ih
      obtain ⟨-, s', hs', h1, h2, h3, h4, ys, hl, h5⟩ := Impulse.Infinite.run_eq ha hb c ops
      rw [hs] at hs'; cases hs'
      rw [Impulse.Infinite.run, runOps_append]
      rw [Impulse.Infinite.run] at hs
      rw [hs]
      cases op with
      | clear =>
        rw [sinceClear_append_clear]
        exact ⟨_, rfl, fun h => by simp at h⟩
      | push x =>
        rw [sinceClear_append_push]
        have hd := Impulse.pushFront_take (List.length_pos_iff.2 ha) (sinceClear ops).reverse x
        obtain ⟨r, hr⟩ := Impulse.innerProduct_some (ofNat 0 : X F)
          (l := (x :: (sinceClear ops).reverse).take as.length) (cs := as) (by simp)
        obtain ⟨q, hq⟩ := Impulse.innerProduct_some (ofNat 0 : X F)
          (l := ys.reverse.take bs.length) (cs := bs) (by simp)
        have hd2 := Impulse.pushFront_take (List.length_pos_iff.2 hb) ys.reverse ((r - q) / c)
        refine ⟨{ s with inputWindow := ⟨as.length, (x :: (sinceClear ops).reverse).take as.length⟩
                         outputWindow := ⟨bs.length, (((r - q) / c) :: ys.reverse).take bs.length⟩ }, ?_, fun h => ?_⟩
        · show Impulse.Infinite.push s x = _
          rw [Impulse.Infinite.push, h1, h2, h3, h4, h5, hd]
          simp only [hr, hq, hd2, Option.bind_eq_bind, Option.bind_some]
          rfl
        · have hrq : (r - q) / c = X.nan := by
            rcases List.mem_append.1 h with h | h
            · obtain ⟨t, ht⟩ := hn h
              rw [h5] at ht
              simp only at ht
              have := Impulse.innerProduct_nan (acc := ofNat 0) (l := ys.reverse.take bs.length) (cs := bs)
                (by simp) (by rw [ht]; simp)
              rw [hq] at this
              rw [Option.some.inj this]; simp
            · rw [List.mem_singleton] at h
              subst h
              obtain ⟨a, as', rfl⟩ := List.exists_cons_of_ne_nil ha
              have := Impulse.innerProduct_nan (acc := ofNat 0)
                (l := (X.nan :: (sinceClear ops).reverse).take (a :: as').length) (cs := a :: as')
                (by simp) (by simp)
              rw [hr] at this
              rw [Option.some.inj this]; simp
          rw [hrq]
          obtain ⟨b, bs', rfl⟩ := List.exists_cons_of_ne_nil hb
          exact ⟨ys.reverse.take bs'.length, by simp⟩
  obtain ⟨s, hs, hn⟩ := key ops
  obtain ⟨t, ht⟩ := hn h
  exact ⟨s, hs, by simp [Impulse.Infinite.value, ht]⟩

/-- Coefficients 1, 0: the NaN of the push before still shows. -/
example : ∃ s : Impulse.Finite (X binary64),
    Impulse.Finite.run [X.fin 1, X.fin 0] ([.push X.nan] ++ [.push (X.fin 5)]) = some s ∧ s.value = X.nan :=
  C82_fir_partial (by simp) _ _ (by simp [sinceClear, Spec.lastN])

example : ∃ s : Impulse.Infinite (X binary64),
    Impulse.Infinite.run [X.fin 1] [X.fin 1] (X.fin 2)
      [.push (X.fin 1), .push X.nan, .push (X.fin 5), .push (X.fin 5)] = some s ∧ s.value = X.nan :=
  C82_iir_partial (by simp) (by simp) _ _ (by simp [sinceClear])

/-! ### C82: interim filters -/

section
open Verif.Interim

/-- The values `variance()`, `skewness()` and `kurtosis()` of an interim filter are computed from: the previous block, and
the current one unless it has just been started. -/
def interimInUse {β : Type} (W : Nat) (xs : List β) : List β :=
  Spec.prevBlock W xs ++ (if xs.length ≤ W ∨ 2 ≤ (Spec.curBlock W xs).length then Spec.curBlock W xs else [])

variable {W : Nat} {σ β : Type} [Block σ w β] [LawfulBlock σ w β]

theorem Itm.size_le_one {W : Nat} (hW : 1 ≤ W) (hw : W < 2 ^ w) {xs : List β} (h : 2 ≤ (Spec.curBlock W xs).length) :
    ¬ Block.size (foldB (Spec.curBlock W xs) : σ) ≤ 1 := by
  have hl := Spec.length_curBlock_le hW xs
  rw [size_foldB, BitVec.le_def, BitVec.toNat_ofNat, Nat.mod_eq_of_lt (by omega)]
  have : (1 : BitVec w).toNat ≤ 1 := by
    show (BitVec.ofNat w 1).toNat ≤ 1
    rw [BitVec.toNat_ofNat]; exact Nat.mod_le _ _
  omega

theorem Itm.mean_nan (hW : 1 ≤ W) (hw : W < 2 ^ w) (bad : β → Prop) (get : σ → X F)
    (hg : ∀ l : List β, l.length ≤ W → (∃ x ∈ l, bad x) → get (foldB l) = X.nan) (ops : List (Op β))
    (h : ∃ x ∈ Spec.prevBlock W (sinceClear ops) ++ Spec.curBlock W (sinceClear ops), bad x) :
    (Interim.run ops : Interim W σ).meanWith get = X.nan := by
  rw [run_blocks hW hw, Interim.meanWith, passiveEmpty_blocks hW hw]
  have hlp : (Spec.prevBlock W (sinceClear ops)).length ≤ W := by rw [Spec.length_prevBlock hW]; split_ifs <;> omega
  have hlc := Spec.length_curBlock_le hW (sinceClear ops)
  by_cases hn : (sinceClear ops).length ≤ W
  · rw [decide_eq_true hn, if_pos rfl]
    refine hg _ hlc ?_
    rw [(Spec.prevBlock_eq_nil hW _).2 hn, List.nil_append] at h
    exact h
  · rw [decide_eq_false hn, if_neg (by simp)]
    obtain ⟨x, hx, hb⟩ := h
    rcases List.mem_append.1 hx with hx | hx
    · simp only [hg _ hlp ⟨x, hx, hb⟩]; simp
    · simp only [hg _ hlc ⟨x, hx, hb⟩]; simp

theorem Itm.blend_nan (hW : 1 ≤ W) (hw : W < 2 ^ w) (bad : β → Prop) (get : σ → X F)
    (hg : ∀ l : List β, l.length ≤ W → (∃ x ∈ l, bad x) → get (foldB l) = X.nan) (ops : List (Op β))
    (h : ∃ x ∈ interimInUse W (sinceClear ops), bad x) :
    (Interim.run ops : Interim W σ).varianceWith get = X.nan ∧ (Interim.run ops : Interim W σ).blendWith get = X.nan := by
  rw [run_blocks hW hw, Interim.varianceWith, Interim.blendWith, passiveEmpty_blocks hW hw]
  have hlp : (Spec.prevBlock W (sinceClear ops)).length ≤ W := by rw [Spec.length_prevBlock hW]; split_ifs <;> omega
  have hlc := Spec.length_curBlock_le hW (sinceClear ops)
  unfold interimInUse at h
  by_cases hn : (sinceClear ops).length ≤ W
  · rw [decide_eq_true hn, if_pos rfl, if_pos rfl]
    rw [(Spec.prevBlock_eq_nil hW _).2 hn, List.nil_append, if_pos (Or.inl hn)] at h
    exact ⟨hg _ hlc h, hg _ hlc h⟩
  · simp only [decide_eq_false hn, Bool.false_eq_true, if_false]
    obtain ⟨x, hx, hb⟩ := h
    rcases List.mem_append.1 hx with hx | hx
    · simp only [hg _ hlp ⟨x, hx, hb⟩]
      constructor <;> split_ifs <;> simp
    · have h2 : 2 ≤ (Spec.curBlock W (sinceClear ops)).length := by
        by_contra h2
        rw [if_neg (by omega)] at hx
        simp at hx
      rw [if_pos (Or.inr h2)] at hx
      simp only [if_neg (Itm.size_le_one (σ := σ) hW hw h2), hg _ hlc ⟨x, hx, hb⟩]
      constructor <;> simp

/-- C82, interim filters: the mean is NaN as long as the NaN is in one of the two blocks; variance, skewness, kurtosis and
covariance are NaN as long as it is among the values in use (`interimInUse`).  In every format, whatever else was pushed. -/
theorem C82_interim_partial (hW : 1 ≤ W) (hw : W < 2 ^ w) (ops : List (Op (X F))) (ops2 : List (Op (X F × X F))) :
    (X.nan ∈ Spec.prevBlock W (sinceClear ops) ++ Spec.curBlock W (sinceClear ops) →
      IMean.mean (Interim.run ops : IMean w W (X F)) = X.nan)
    ∧ (X.nan ∈ interimInUse W (sinceClear ops) →
      IVariance.variance (Interim.run ops : IVariance w W (X F)) = X.nan
      ∧ ISkewness.skewness (Interim.run ops : ISkewness w W (X F)) = X.nan
      ∧ IKurtosis.kurtosis (Interim.run ops : IKurtosis w W (X F)) = X.nan)
    ∧ ((∃ q ∈ interimInUse W (sinceClear ops2), q.1 = X.nan ∨ q.2 = X.nan) →
      IComoment.variance (Interim.run ops2 : IComoment w W (X F)) = X.nan) := by
  have cum : ∀ l : List (X F), (∃ x ∈ l, x = X.nan) → X.nan ∈ sinceClear (l.map Op.push) := by
    rintro l ⟨x, h, rfl⟩; rwa [sinceClear_pushes]
  refine ⟨fun h => ?_, fun h => ⟨?_, ?_, ?_⟩, fun h => ?_⟩
  · refine Itm.mean_nan hW hw (fun x => x = X.nan) _ (fun l _ hl => ?_) ops ⟨_, h, rfl⟩
    have := (C82_cumulative_partial (w := w) _ (cum l hl)).1
    rwa [Cumulative.Mean.run_eq, sinceClear_pushes] at this
  · refine (Itm.blend_nan hW hw (fun x => x = X.nan) _ (fun l _ hl => ?_) ops ⟨_, h, rfl⟩).1
    have := (C82_cumulative_partial (w := w) _ (cum l hl)).2.2.1
    rwa [Cumulative.Variance.run_eq, sinceClear_pushes] at this
  · refine (Itm.blend_nan hW hw (fun x => x = X.nan) _ (fun l _ hl => ?_) ops ⟨_, h, rfl⟩).2
    have := (C82_cumulative_partial (w := w) _ (cum l hl)).2.2.2.2.1
    rwa [Cumulative.Skewness.run_eq, sinceClear_pushes] at this
  · refine (Itm.blend_nan hW hw (fun x => x = X.nan) _ (fun l _ hl => ?_) ops ⟨_, h, rfl⟩).2
    have := (C82_cumulative_partial (w := w) _ (cum l hl)).2.2.2.2.2.2.1
    rwa [Cumulative.Kurtosis.run_eq, sinceClear_pushes] at this
  · refine (Itm.blend_nan hW hw (fun q : X F × X F => q.1 = X.nan ∨ q.2 = X.nan) _ (fun l hl hb => ?_) ops2 h).1
    have := (C82_pairs_partial (w := w) (l.map Op.push) (by rwa [sinceClear_pushes]) (by rw [sinceClear_pushes]; omega)).1
    rwa [Cumulative.Comoment.run_eq, sinceClear_pushes] at this

/-- C82, interim regression without `clear()` (which is wrong there, C33): `at()` is NaN as long as a pair with a NaN is in one
of the two blocks, and the slope is NaN if it is among the pairs in use and in the first coordinate. -/
theorem C82_interim_regression_partial (hW : 1 ≤ W) (hw : W < 2 ^ w) (ps : List (X F × X F)) :
    ((∃ q ∈ Spec.prevBlock W ps ++ Spec.curBlock W ps, q.1 = X.nan ∨ q.2 = X.nan) →
      ∀ pos, (Interim.Regression.run (ps.map Op.push) : Interim.Regression w W (X F)).at' pos = X.nan)
    ∧ ((∃ q ∈ interimInUse W ps, q.1 = X.nan) →
      (Interim.Regression.run (ps.map Op.push) : Interim.Regression w W (X F)).slope = X.nan) := by
  obtain ⟨h1, h2, h3⟩ := regression_run (w := w) (W := W) (ps.map Op.push)
  have ex : (ps.map Op.push).map (Op.map Prod.fst) = (ps.map Prod.fst).map (Op.push (β := X F)) := by
    simp [Op.map, Function.comp_def]
  rw [List.filterMap_map] at h3
  simp only [Function.comp_def, List.filterMap_some] at h3
  rw [ex] at h2
  have ey : (ps.map fun p : X F × X F => Op.push p.2) = (ps.map Prod.snd).map Op.push := by
    rw [List.map_map]; rfl
  rw [ey] at h3
  have cum : ∀ l : List (X F), (∃ x ∈ l, x = X.nan) → X.nan ∈ sinceClear (l.map Op.push) := by
    rintro l ⟨x, h, rfl⟩; rwa [sinceClear_pushes]
  have hmem : ∀ (f : X F × X F → X F), (∃ q ∈ Spec.prevBlock W ps ++ Spec.curBlock W ps, f q = X.nan) →
      ∃ x ∈ Spec.prevBlock W (sinceClear ((ps.map f).map Op.push)) ++ Spec.curBlock W (sinceClear ((ps.map f).map Op.push)),
        x = X.nan := by
    rintro f ⟨q, hq, e⟩
    rw [sinceClear_pushes, Spec.prevBlock_map, Spec.curBlock_map, ← List.map_append]
    exact ⟨_, List.mem_map_of_mem hq, e⟩
  constructor
  · rintro ⟨q, hq, e | e⟩ pos
    · have hx : (Interim.Regression.run (ps.map Op.push) : Interim.Regression w W (X F)).xMoment.mean = X.nan := by
        show (Interim.Regression.xMoment _).meanWith _ = _
        rw [h2]
        refine Itm.mean_nan hW hw (fun x => x = X.nan) _ (fun l _ hl => ?_) _ (hmem Prod.fst ⟨q, hq, e⟩)
        have := (Cum.variance_nan (w := w) (xs := l) (by obtain ⟨x, h, rfl⟩ := hl; exact h)).1
        exact this
      rw [Interim.Regression.at', hx]; simp
    · have hy : (Interim.Regression.run (ps.map Op.push) : Interim.Regression w W (X F)).yMoment.mean = X.nan := by
        show (Interim.Regression.yMoment _).meanWith _ = _
        rw [h3]
        refine Itm.mean_nan hW hw (fun x => x = X.nan) _ (fun l _ hl => ?_) _ (hmem Prod.snd ⟨q, hq, e⟩)
        have := (C82_cumulative_partial (w := w) _ (cum l hl)).1
        rwa [Cumulative.Mean.run_eq, sinceClear_pushes] at this
      rw [Interim.Regression.at', hy]; simp
  · rintro ⟨q, hq, e⟩
    have hx : (Interim.Regression.run (ps.map Op.push) : Interim.Regression w W (X F)).xMoment.variance = X.nan := by
      show (Interim.Regression.xMoment _).varianceWith _ = _
      rw [h2]
      refine (Itm.blend_nan hW hw (fun x => x = X.nan) _ (fun l _ hl => ?_) _ ?_).1
      · have := (C82_cumulative_partial (w := w) _ (cum l hl)).2.2.1
        rwa [Cumulative.Variance.run_eq, sinceClear_pushes] at this
      · rw [sinceClear_pushes]
        refine ⟨q.1, ?_, e⟩
        have h5 := List.mem_map_of_mem (f := Prod.fst) hq
        unfold interimInUse at h5 ⊢
        rw [Spec.prevBlock_map, Spec.curBlock_map, List.length_map, List.length_map]
        rw [List.map_append] at h5
        split_ifs at h5 ⊢ <;> simpa using h5
    rw [Interim.Regression.slope, hx]
    have : beq (X.nan : X F) (ofNat 0) = false := rfl
    simp [this]

/-- The current block is `NaN, 4`. -/
example : IVariance.variance (Interim.run [.push (X.fin 1), .push (X.fin 2), .push X.nan, .push (X.fin 4)] : IVariance 64 2 (X binary64)) = X.nan :=
  ((C82_interim_partial (w := 64) (W := 2) (by norm_num) (by norm_num) _ []).2.1
    (by simp [sinceClear, interimInUse, Spec.prevBlock, Spec.curBlock])).1

end

/-! ### C83: bad values leave the window -/

/-- C83 as claimed for the window filters, in any format: the results depend on the values in the window
only (so a NaN is forgotten after `N` further values). -/
def C83_Statement (F : Fmt) : Prop :=
  ∀ (N : Nat), 1 ≤ N → ∀ ops ops' : List (Op (X F)), N ≤ (sinceClear ops).length →
    Spec.lastN N (sinceClear ops) = Spec.lastN N (sinceClear ops') →
    (Window.Variance.run ops : Option (Window.Variance N (X F))).map (fun s => (s.getMean, s.variance))
      = (Window.Variance.run ops' : Option (Window.Variance N (X F))).map (fun s => (s.getMean, s.variance))

/-- A NaN that has left the window still makes `mean()` NaN and `variance()` 0, for every window, every
format and all later values. -/
theorem C83_window_stuck (hN : 1 ≤ N) (pre post : List (X F)) :
    ∃ s : Window.Variance N (X F),
      Window.Variance.run ((pre ++ X.nan :: post).map .push) = some s
      ∧ s.super.window.items = Spec.lastN N (pre ++ X.nan :: post)
      ∧ s.getMean = X.nan ∧ s.variance = ofNat 0 := by
  obtain ⟨s, hs, h1, h2, -⟩ := C82_window_variance_zero (F := F) (N := N) hN
    ((pre ++ X.nan :: post).map .push) (by rw [sinceClear_pushes]; simp)
  obtain ⟨t, ht, hi⟩ := Window.Variance.run_items (N := N) hN ((pre ++ X.nan :: post).map (Op.push (β := X F)))
  rw [hs] at ht; cases ht
  exact ⟨s, hs, by rw [hi, sinceClear_pushes], h1, h2⟩

/-- The same for the mean filter and the covariance filter. -/
theorem C83_mean_stuck (hN : 1 ≤ N) (pre post : List (X F)) :
    ∃ s : Window.Mean N (X F), Window.Mean.run ((pre ++ X.nan :: post).map .push) = some s ∧ s.getMean = X.nan :=
  (C82_window_partial (F := F) hN).1 _ (by rw [sinceClear_pushes]; simp)

theorem C83_comoment_stuck (hN : 1 ≤ N) (pre post : List (X F × X F)) (y : X F) :
    ∃ s : Window.Comoment N (X F), Window.Comoment.run ((pre ++ (X.nan, y) :: post).map .push) = some s
      ∧ s.variance = X.nan := by
  obtain ⟨s, h, h', -⟩ := (C82_window_partial (F := F) hN).2 ((pre ++ (X.nan, y) :: post).map .push)
    ⟨(X.nan, y), by rw [sinceClear_pushes]; simp, Or.inl rfl⟩
  exact ⟨s, h, h'⟩

/-- Window of 1: after NaN, 0 the mean is NaN; after 0 alone it is 0. -/
theorem C83_violated : ¬ C83_Statement binary64 := by
  intro h
  have h1 := h 1 le_rfl [.push X.nan, .push (X.fin 0)] [.push (X.fin 0)] (by simp [sinceClear])
    (by simp [sinceClear, Spec.lastN])
  obtain ⟨s, hs, -, hm, -⟩ := C83_window_stuck (F := binary64) (N := 1) le_rfl [] [X.fin 0]
  have hs' : (Window.Variance.run [.push X.nan, .push (X.fin 0)] : Option (Window.Variance 1 (X binary64))) = some s := hs
  rw [hs'] at h1
  obtain ⟨t, ht, hi⟩ := Window.Variance.run_items (N := 1) le_rfl [Op.push (X.fin 0 : X binary64)]
  rw [ht] at h1
  simp only [Option.map_some, Option.some.injEq, Prod.mk.injEq] at h1
  have hz : t.getMean = X.fin 0 := by
    have e : (Window.Variance.run [Op.push (X.fin 0 : X binary64)] : Option (Window.Variance 1 (X binary64)))
        = some { super := { mean := ofNat 0 + (X.fin 0 - ofNat 0) / ofNat (0 + 1), window := ⟨[X.fin 0]⟩ }
                 sumVariance := ofNat 0 + (X.fin 0 - ofNat 0)
                  * (X.fin 0 - (ofNat 0 + (X.fin 0 - ofNat 0) / ofNat (0 + 1))) } := rfl
    rw [ht] at e
    cases e
    show ofNat 0 + (X.fin 0 - ofNat 0) / ofNat (0 + 1) = (X.fin 0 : X binary64)
    have o : (ofNat 1 : X binary64) = X.fin 1 := binary64_binary.ofNat_one
    have r : (X.round 0 : X binary64) = X.fin 0 := binary64_binary.round_exact (isRep_zero _ _) binary64_binary.fits_zero
    rw [double_zero, zero_add, o, X.sub_fin, sub_zero, r, X.div_fin_of_ne _ one_ne_zero, zero_div, r, X.add_fin,
      add_zero, r]
  rw [hm, hz] at h1
  cases h1.1

/-- C83, the part that holds, in any arithmetic: the FIR filter depends on the last `P` inputs only, the
interim filters depend on the last `2 W` values only (`C29_recent`).  Missing: the window filters
(violated). -/
theorem C83_fir_partial {α : Type} [Scalar α] {cs : List α} (hc : cs ≠ []) (ops ops' : List (Op α)) (x : α)
    (h : Spec.lastN cs.length (sinceClear (ops ++ [.push x])) = Spec.lastN cs.length (sinceClear (ops' ++ [.push x]))) :
    (Impulse.Finite.run cs (ops ++ [.push x])).map Impulse.Finite.value
      = (Impulse.Finite.run cs (ops' ++ [.push x])).map Impulse.Finite.value := by
  obtain ⟨s, hs, hv⟩ := fir_value hc ops x
  obtain ⟨t, ht, hu⟩ := fir_value hc ops' x
  rw [hs, ht, Option.map_some, Option.map_some, ← hv, ← hu]
  congr 1
  rw [List.take_reverse, List.take_reverse]
  exact congrArg List.reverse h

/-- The NaN has left the filter. -/
example : (Impulse.Finite.run [X.fin 1, X.fin 2] ([.push X.nan, .push (X.fin 3)] ++ [.push (X.fin 5)])).map
      Impulse.Finite.value
    = (Impulse.Finite.run [X.fin 1, X.fin 2] ([.push (X.fin 3)] ++ [.push (X.fin 5)])).map
      (Impulse.Finite.value (α := X binary64)) :=
  C83_fir_partial (by simp) _ _ _ (by simp [sinceClear, Spec.lastN])

/-! ### C84: infinities -/

namespace Cum
open Cumulative

/-- The converted count is a number of at least 0 or `+inf`. -/
theorem ofSize_nonneg (hF : F.Binary p emin) (n : SizeT w) :
    (∃ r : ℝ, 0 ≤ r ∧ (ofSize n : X F) = X.fin r) ∨ (ofSize n : X F) = X.pinf := by
  rw [ofSize, X.ofNat_eq, X.round]
  have h0 : (0 : ℝ) ≤ n.toNat := Nat.cast_nonneg _
  by_cases hf : F.fits (F.rnd (n.toNat : ℝ))
  · rw [if_pos hf]; exact Or.inl ⟨_, hF.rnd_nonneg h0, rfl⟩
  · rw [if_neg hf]
    right
    rw [if_pos]
    refine lt_of_le_of_ne h0 fun e => hf ?_
    rw [← e, hF.exact _ (isRep_zero _ _)]; exact hF.fits_zero

theorem inf_div (hF : F.Binary p emin) {a : X F} (ha : a.IsInf ∨ a = X.nan) (n : SizeT w) :
    a / ofSize n = a ∨ a / ofSize n = X.nan := by
  rcases ha with (rfl | rfl) | rfl
  · rcases ofSize_nonneg (F := F) hF n with ⟨r, hr, e⟩ | e <;> rw [e]
    · left; show (if r < 0 then X.ninf else X.pinf) = _; rw [if_neg (by linarith)]
    · right; rfl
  · rcases ofSize_nonneg (F := F) hF n with ⟨r, hr, e⟩ | e <;> rw [e]
    · left; show (if r < 0 then X.pinf else X.ninf) = _; rw [if_neg (by linarith)]
    · right; rfl
  · simp

/-- Pushing an infinity makes the mean infinite or NaN. -/
theorem mean_push_inf (hF : F.Binary p emin) (s : Mean w (X F)) {x : X F} (hx : x.IsInf) :
    (s.push x).mean.IsInf ∨ (s.push x).mean = X.nan := by
  show (s.mean + (x - s.mean) / ofSize (s.count + 1)).IsInf ∨ s.mean + (x - s.mean) / ofSize (s.count + 1) = X.nan
  generalize s.mean = m
  have h1 : (x - m).IsInf ∨ x - m = X.nan := by
    rcases hx with rfl | rfl <;> cases m <;>
      first | exact Or.inl (Or.inl rfl) | exact Or.inl (Or.inr rfl) | exact Or.inr rfl
  rcases inf_div hF h1 (s.count + 1) with e | e <;> rw [e]
  · rcases h1 with (e | e) | e <;> rw [e] <;> cases m <;>
      first | exact Or.inl (Or.inl rfl) | exact Or.inl (Or.inr rfl) | exact Or.inr rfl
  · simp

/-- A further value makes it NaN. -/
theorem mean_push_after_inf (hF : F.Binary p emin) (s : Mean w (X F)) (x : X F)
    (h : s.mean.IsInf ∨ s.mean = X.nan) : (s.push x).mean = X.nan := by
  show s.mean + (x - s.mean) / ofSize (s.count + 1) = X.nan
  rcases h with (h | h) | h <;> rw [h]
  · have h1 : x - X.pinf = X.ninf ∨ x - X.pinf = X.nan := by
      cases x <;> first | exact Or.inl rfl | exact Or.inr rfl
    rcases inf_div hF (a := x - X.pinf) (by rcases h1 with e | e <;> simp [e, X.IsInf]) (s.count + 1) with e | e <;> rw [e]
    · rcases h1 with e | e <;> rw [e] <;> rfl
    · simp
  · have h1 : x - X.ninf = X.pinf ∨ x - X.ninf = X.nan := by
      cases x <;> first | exact Or.inl rfl | exact Or.inr rfl
    rcases inf_div hF (a := x - X.ninf) (by rcases h1 with e | e <;> simp [e, X.IsInf]) (s.count + 1) with e | e <;> rw [e]
    · rcases h1 with e | e <;> rw [e] <;> rfl
    · simp
  · simp

end Cum

open Cumulative in
/-- C84 as claimed: the mean of values of which at least one is `+inf` and the others are finite is `+inf`. -/
def C84_Statement (w : Nat) (F : Fmt) : Prop :=
  ∀ ops : List (Op (X F)), X.pinf ∈ sinceClear ops → (∀ x ∈ sinceClear ops, x = X.pinf ∨ x.IsFin) →
    (Mean.run ops : Mean w (X F)).getMean = X.pinf

open Cumulative in
/-- From the value after an infinity until the next `clear` the cumulative mean is NaN, whatever the data
are. -/
theorem C84_after_infinity (hF : F.Binary p emin) (ops : List (Op (X F))) (pre post : List (X F)) (z x : X F)
    (hz : z = X.pinf ∨ z = X.ninf) (h : sinceClear ops = pre ++ z :: x :: post) :
    (Mean.run ops : Mean w (X F)).getMean = X.nan := by
  rw [Mean.run_eq, h, List.foldl_append, List.foldl_cons, List.foldl_cons]
  have h1 := Cum.mean_push_after_inf hF _ x
    (Cum.mean_push_inf hF (pre.foldl Mean.push (Mean.init : Mean w (X F))) hz)
  generalize ((pre.foldl Mean.push (Mean.init : Mean w (X F))).push z).push x = s at h1
  clear h
  show (post.foldl Mean.push s).mean = X.nan
  induction post using List.reverseRecOn with
  | nil => exact h1
  | append_singleton post y ih =>
    rw [List.foldl_append]
    show (post.foldl Mean.push s).mean + _ = _
    rw [ih, X.nan_add]

open Cumulative in
theorem C84_violated : ¬ C84_Statement 64 binary64 := by
  intro h
  have h1 := h [.push X.pinf, .push (X.fin 0)] (by simp [sinceClear]) (by simp [sinceClear])
  rw [C84_after_infinity binary64_binary _ [] [] X.pinf (X.fin 0) (Or.inl rfl) rfl] at h1
  cases h1

open Cumulative in
/-- C84, the part that holds: right after the infinity, if the mean before it is finite.  Missing: any
further value (violated). -/
theorem C84_last_partial (hF : F.Binary p emin) (ops : List (Op (X F))) {z : X F} (hz : z = X.pinf ∨ z = X.ninf)
    (hm : (Mean.run ops : Mean w (X F)).getMean.IsFin)
    (hc : (ofSize (Mean.run (ops ++ [.push z]) : Mean w (X F)).size : X F).IsFin) :
    (Mean.run (ops ++ [.push z]) : Mean w (X F)).getMean = z := by
  obtain ⟨m, hm⟩ := hm
  obtain ⟨r, hr⟩ := hc
  have e : (Mean.run (ops ++ [.push z]) : Mean w (X F)) = (Mean.run ops : Mean w (X F)).push z := by
    rw [Mean.run, runOps_append]; rfl
  rw [e] at hr ⊢
  have hr' : (ofSize ((Mean.run ops : Mean w (X F)).count + 1) : X F) = X.fin r := hr
  have h0 : 0 ≤ r := by
    rcases Cum.ofSize_nonneg (F := F) hF ((Mean.run ops : Mean w (X F)).count + 1) with ⟨r', h, e⟩ | e
    · rw [hr'] at e; cases e; exact h
    · rw [hr'] at e; cases e
  have hm' : (Mean.run ops : Mean w (X F)).mean = X.fin m := hm
  show (Mean.run ops : Mean w (X F)).mean + (z - (Mean.run ops : Mean w (X F)).mean)
    / ofSize ((Mean.run ops : Mean w (X F)).count + 1) = z
  rw [hm', hr']
  rcases hz with rfl | rfl
  · show X.fin m + (if r < 0 then X.ninf else X.pinf) = _
    rw [if_neg (by linarith)]; rfl
  · show X.fin m + (if r < 0 then X.pinf else X.ninf) = _
    rw [if_neg (by linarith)]; rfl

open Cumulative in
example : (Mean.run ([] ++ [.push X.ninf]) : Mean 64 (X binary64)).getMean = X.ninf :=
  C84_last_partial binary64_binary [] (Or.inr rfl) ⟨0, double_zero⟩
    ⟨1, binary64_binary.ofNat_one⟩

end Verif.Props
