import Verif.Model.Cumulative
import Verif.Model.Decay
import Verif.Model.Window
import Verif.Model.Interim
import Verif.Model.Impulse
import Verif.Model.PSquare
import Verif.Proofs.History
/-
Every filter commutes with maps between arithmetics that respect the operations (naturality).

`Hom φ good`: the map `φ` respects all operations; divisions are only required to be respected for a divisor with the
property `good`, which the divisors of the library have: converted integers, products of a number with itself or with its
square root, positive numbers, numbers that compare different from zero, and square roots of numbers that are at least
`epsilon`.
-/
namespace Verif
open Scalar

/-- A map between arithmetics that respects the operations of the library. -/
structure Hom {α β : Type} [Scalar α] [Scalar β] (φ : α → β) (good : α → Prop) : Prop where
  add : ∀ a b, φ (a + b) = φ a + φ b
  sub : ∀ a b, φ (a - b) = φ a - φ b
  mul : ∀ a b, φ (a * b) = φ a * φ b
  div : ∀ a b, good b → φ (a / b) = φ a / φ b
  ofInt : ∀ n, φ (ofInt n) = ofInt n
  lt : ∀ a b, Scalar.lt (φ a) (φ b) = Scalar.lt a b
  le : ∀ a b, Scalar.le (φ a) (φ b) = Scalar.le a b
  beq : ∀ a b, Scalar.beq (φ a) (φ b) = Scalar.beq a b
  sqrt : ∀ a, φ (sqrt a) = sqrt (φ a)
  floor : ∀ a, φ (floor a) = floor (φ a)
  toIndex : ∀ a, toIndex (φ a) = toIndex a
  eps : φ eps = eps
  good_ofInt : ∀ n, good (Scalar.ofInt n)
  good_sq : ∀ a, good (a * a)
  good_sqrt_mul : ∀ a, good (Scalar.sqrt a * a)
  good_mul_sqrt : ∀ a, good (a * Scalar.sqrt a)
  good_pos : ∀ a, Scalar.lt (ofNat 0) a = true → good a
  good_ne : ∀ a, Scalar.beq a (ofNat 0) = false → good a
  good_sqrt : ∀ a, Scalar.lt a Scalar.eps = false → good (Scalar.sqrt a)

theorem runOps_natural {σ τ β γ : Type} (m : σ → τ) (f : β → γ) {i : σ} {p : σ → β → σ} {c : σ → σ} {i' : τ}
    {p' : τ → γ → τ} {c' : τ → τ} (hi : m i = i') (hp : ∀ s x, m (p s x) = p' (m s) (f x)) (hc : ∀ s, m (c s) = c' (m s))
    (ops : List (Op β)) : m (runOps i p c ops) = runOps i' p' c' (ops.map (Op.map f)) := by
  induction ops using List.reverseRecOn with
  | nil => exact hi
  | append_singleton ops o ih =>
    unfold runOps at *
    rw [List.map_append, List.foldl_append, List.foldl_append, ← ih]
    cases o with
    | push x => exact hp _ x
    | clear => exact hc _

theorem runOps_natural_option {σ τ β γ : Type} (m : σ → τ) (f : β → γ) {i : σ} {p : σ → β → Option σ} {c : σ → σ} {i' : τ}
    {p' : τ → γ → Option τ} {c' : τ → τ} (hi : m i = i') (hp : ∀ s x, (p s x).map m = p' (m s) (f x))
    (hc : ∀ s, m (c s) = c' (m s)) (ops : List (Op β)) :
    (runOps (some i) (fun s x => s.bind (p · x)) (Option.map c) ops).map m
      = runOps (some i') (fun s x => s.bind (p' · x)) (Option.map c') (ops.map (Op.map f)) := by
  refine runOps_natural (Option.map m) f (by simp [hi]) ?_ ?_ ops
  · intro s x
    cases s with
    | none => rfl
    | some s => exact hp s x
  · intro s
    cases s with
    | none => rfl
    | some s => simp [hc]

namespace Hom
variable {α β : Type} [Scalar α] [Scalar β] {φ : α → β} {good : α → Prop} (H : Hom φ good)
include H

theorem ofNat (n : Nat) : φ (Scalar.ofNat n) = Scalar.ofNat n := H.ofInt n
theorem ofSize {w : Nat} (n : SizeT w) : φ (Scalar.ofSize n) = Scalar.ofSize n := H.ofNat _
theorem divNat (a : α) (n : Nat) : φ (a / Scalar.ofNat n) = φ a / Scalar.ofNat n := by
  rw [← H.ofNat n]
  exact H.div _ _ (H.good_ofInt _)
theorem divSize {w : Nat} (a : α) (n : SizeT w) : φ (a / Scalar.ofSize n) = φ a / Scalar.ofSize n := H.divNat _ _
theorem max (a b : α) : φ (Scalar.max a b) = Scalar.max (φ a) (φ b) := by
  unfold Scalar.max
  rw [H.lt]
  split_ifs <;> rfl
theorem lt_eps (a : α) : Scalar.lt (φ a) Scalar.eps = Scalar.lt a Scalar.eps := by rw [← H.eps, H.lt]
theorem eps_lt (a : α) : Scalar.lt Scalar.eps (φ a) = Scalar.lt Scalar.eps a := by rw [← H.eps, H.lt]
theorem pos_iff (a : α) : Scalar.lt (Scalar.ofNat 0) (φ a) = Scalar.lt (Scalar.ofNat 0) a := by rw [← H.ofNat, H.lt]
theorem neg_iff (a : α) : Scalar.lt (φ a) (Scalar.ofNat 0) = Scalar.lt a (Scalar.ofNat 0) := by rw [← H.ofNat, H.lt]
theorem beq_zero (a : α) : Scalar.beq (φ a) (Scalar.ofNat 0) = Scalar.beq a (Scalar.ofNat 0) := by rw [← H.ofNat, H.beq]
end Hom

variable {α β : Type} [Scalar α] [Scalar β]

/-! ### Cumulative filters -/
namespace Cumulative
variable {w : Nat}

/-- Apply a map to all numbers of the state. -/
def Mean.map (φ : α → β) (s : Mean w α) : Mean w β := { mean := φ s.mean, count := s.count }
/-- Apply a map to all numbers of the state. -/
def Variance.map (φ : α → β) (s : Variance w α) : Variance w β := { super := s.super.map φ, sumVariance := φ s.sumVariance }
/-- Apply a map to all numbers of the state. -/
def Skewness.map (φ : α → β) (s : Skewness w α) : Skewness w β := { super := s.super.map φ, sumSkewness := φ s.sumSkewness }
/-- Apply a map to all numbers of the state. -/
def Kurtosis.map (φ : α → β) (s : Kurtosis w α) : Kurtosis w β := { super := s.super.map φ, sumKurtosis := φ s.sumKurtosis }
/-- Apply a map to all numbers of the state. -/
def Comoment.map (φ : α → β) (s : Comoment w α) : Comoment w β :=
  { xCenter := s.xCenter.map φ, yCenter := s.yCenter.map φ, center := φ s.center }
/-- Apply a map to all numbers of the state. -/
def Correlation.map (φ : α → β) (s : Correlation w α) : Correlation w β := { co := s.co.map φ, x := s.x.map φ, y := s.y.map φ }
/-- Apply a map to all numbers of the state. -/
def Regression.map (φ : α → β) (s : Regression w α) : Regression w β := { co := s.co.map φ, x := s.x.map φ, y := s.y.map φ }
/-- Apply a map to all numbers of the state. -/
def Trend.map (φ : α → β) (s : Trend w α) : Trend w β := { center := s.center.map φ, grand := s.grand.map φ }

variable {φ : α → β} {good : α → Prop} (H : Hom φ good)
include H

theorem Mean.map_init : (Mean.init : Mean w α).map φ = Mean.init := by
  simp only [Mean.map, Mean.init, H.ofNat]
theorem Mean.map_clear (s : Mean w α) : s.clear.map φ = (s.map φ).clear := by
  simp only [Mean.map, Mean.clear, H.ofNat]
theorem Mean.map_push (s : Mean w α) (x : α) : (s.push x).map φ = (s.map φ).push (φ x) := by
  simp only [Mean.map, Mean.push, H.add, H.divSize, H.sub]
set_option linter.unusedSectionVars false in
theorem Mean.map_getMean (s : Mean w α) : φ s.getMean = (s.map φ).getMean := rfl
theorem Mean.map_unbiasedMean (s : Mean w α) : φ s.unbiasedMean = (s.map φ).unbiasedMean := by
  simp only [Mean.map, Mean.unbiasedMean, H.divSize, H.mul, H.ofSize]
theorem Mean.map_run (ops : List (Op α)) : (Mean.run ops : Mean w α).map φ = Mean.run (ops.map (Op.map φ)) :=
  runOps_natural _ φ (Mean.map_init H) (Mean.map_push H) (Mean.map_clear H) ops

theorem Variance.map_init : (Variance.init : Variance w α).map φ = Variance.init := by
  simp only [Variance.map, Variance.init, H.ofNat, Mean.map_init H]
theorem Variance.map_clear (s : Variance w α) : s.clear.map φ = (s.map φ).clear := by
  simp only [Variance.map, Variance.clear, H.ofNat, Mean.map_clear H]
theorem Variance.map_push (s : Variance w α) (x : α) : (s.push x).map φ = (s.map φ).push (φ x) := by
  simp only [Variance.map, Variance.push, H.add, H.sub, H.mul, Mean.map_push H, Mean.map_getMean H]
theorem Variance.map_variance (s : Variance w α) : φ s.variance = (s.map φ).variance := by
  simp only [Variance.map, Variance.variance, H.divSize, Mean.map]
theorem Variance.map_unbiasedVariance (s : Variance w α) : φ s.unbiasedVariance = (s.map φ).unbiasedVariance := by
  simp only [Variance.map, Variance.unbiasedVariance, H.divSize, Mean.map]
theorem Variance.map_run (ops : List (Op α)) : (Variance.run ops : Variance w α).map φ = Variance.run (ops.map (Op.map φ)) :=
  runOps_natural _ φ (Variance.map_init H) (Variance.map_push H) (Variance.map_clear H) ops

theorem Skewness.map_init : (Skewness.init : Skewness w α).map φ = Skewness.init := by
  simp only [Skewness.map, Skewness.init, H.ofNat, Variance.map_init H]
theorem Skewness.map_clear (s : Skewness w α) : s.clear.map φ = (s.map φ).clear := by
  simp only [Skewness.map, Skewness.clear, H.ofNat, Variance.map_clear H]
theorem Skewness.map_push (s : Skewness w α) (x : α) : (s.push x).map φ = (s.map φ).push (φ x) := by
  simp only [Skewness.push]
  simp only [Skewness.map, H.add, H.sub, H.mul, H.divSize, H.ofSize, H.ofNat, Variance.map_push H]
  rfl
theorem Skewness.map_skewness (s : Skewness w α) : φ s.skewness = (s.map φ).skewness := by
  unfold Skewness.skewness
  show _ = if Scalar.lt (φ s.sumSkewness) eps then _ else _
  rw [H.lt_eps]
  split_ifs
  · exact H.ofNat 0
  · rw [H.div _ _ (H.good_sqrt_mul _)]
    simp only [H.mul, H.sqrt, H.ofSize]
    rfl
theorem Skewness.map_unbiasedSkewness (s : Skewness w α) : φ s.unbiasedSkewness = (s.map φ).unbiasedSkewness := by
  unfold Skewness.unbiasedSkewness
  show _ = if s.size < 2 then _ else if Scalar.lt (φ s.sumSkewness) eps then _ else _
  rw [H.lt_eps]
  dsimp only
  split_ifs
  · exact H.ofNat 0
  · exact H.ofNat 0
  · simp only [H.divSize, H.mul, H.sqrt, H.ofSize, Skewness.map_skewness H]
    rfl
theorem Skewness.map_run (ops : List (Op α)) : (Skewness.run ops : Skewness w α).map φ = Skewness.run (ops.map (Op.map φ)) :=
  runOps_natural _ φ (Skewness.map_init H) (Skewness.map_push H) (Skewness.map_clear H) ops

theorem Kurtosis.map_init : (Kurtosis.init : Kurtosis w α).map φ = Kurtosis.init := by
  simp only [Kurtosis.map, Kurtosis.init, H.ofNat, Skewness.map_init H]
theorem Kurtosis.map_clear (s : Kurtosis w α) : s.clear.map φ = (s.map φ).clear := by
  simp only [Kurtosis.map, Kurtosis.clear, H.ofNat, Skewness.map_clear H]
theorem Kurtosis.map_push (s : Kurtosis w α) (x : α) : (s.push x).map φ = (s.map φ).push (φ x) := by
  simp only [Kurtosis.push]
  simp only [Kurtosis.map, H.add, H.sub, H.mul, H.divSize, H.ofSize, H.ofNat, Skewness.map_push H]
  rfl
theorem Kurtosis.map_kurtosis (s : Kurtosis w α) : φ s.kurtosis = (s.map φ).kurtosis := by
  unfold Kurtosis.kurtosis
  show _ = if Scalar.lt (φ s.sumKurtosis) eps then _ else _
  rw [H.lt_eps]
  split_ifs
  · exact H.ofNat 0
  · rw [H.div _ _ (H.good_sq _)]
    simp only [H.mul, H.ofSize]
    rfl
theorem Kurtosis.map_unbiasedKurtosis (s : Kurtosis w α) : φ s.unbiasedKurtosis = (s.map φ).unbiasedKurtosis := by
  unfold Kurtosis.unbiasedKurtosis
  show _ = if s.size < 4 then _ else if Scalar.lt (φ s.sumKurtosis) eps then _ else _
  rw [H.lt_eps]
  dsimp only
  split_ifs
  · exact H.ofNat 0
  · exact H.ofNat 0
  · simp only [H.divSize, H.mul, H.add, H.sub, H.ofNat, H.ofSize, Kurtosis.map_kurtosis H]
    rfl
theorem Kurtosis.map_run (ops : List (Op α)) : (Kurtosis.run ops : Kurtosis w α).map φ = Kurtosis.run (ops.map (Op.map φ)) :=
  runOps_natural _ φ (Kurtosis.map_init H) (Kurtosis.map_push H) (Kurtosis.map_clear H) ops

theorem Comoment.map_init : (Comoment.init : Comoment w α).map φ = Comoment.init := by
  simp only [Comoment.map, Comoment.init, H.ofNat, Mean.map_init H]
theorem Comoment.map_clear (s : Comoment w α) : s.clear.map φ = (s.map φ).clear := by
  simp only [Comoment.map, Comoment.clear, H.ofNat, Mean.map_clear H]
theorem Comoment.map_push (s : Comoment w α) (x : α × α) : (s.push x).map φ = (s.map φ).push (Prod.map φ φ x) := by
  simp only [Comoment.push]
  simp only [Comoment.map, H.add, H.sub, H.mul, Mean.map_push H, Mean.map_getMean H]
  rfl
theorem Comoment.map_variance (s : Comoment w α) : φ s.variance = (s.map φ).variance := by
  unfold Comoment.variance
  show _ = if s.size > 0 then φ s.center / ofSize s.size else _
  split_ifs
  · exact H.divSize _ _
  · exact H.ofNat 0
theorem Comoment.map_unbiasedVariance (s : Comoment w α) : φ s.unbiasedVariance = (s.map φ).unbiasedVariance := by
  unfold Comoment.unbiasedVariance
  show _ = if s.size > 1 then φ s.center / ofSize (s.size - 1) else _
  split_ifs
  · exact H.divSize _ _
  · exact H.ofNat 0
theorem Comoment.map_run (ops : List (Op (α × α))) :
    (Comoment.run ops : Comoment w α).map φ = Comoment.run (ops.map (Op.map (Prod.map φ φ))) :=
  runOps_natural _ _ (Comoment.map_init H) (Comoment.map_push H) (Comoment.map_clear H) ops

theorem Correlation.map_run (ops : List (Op (α × α))) :
    (Correlation.run ops : Correlation w α).map φ = Correlation.run (ops.map (Op.map (Prod.map φ φ))) := by
  refine runOps_natural _ _ ?_ ?_ ?_ ops
  · simp only [Correlation.map, Correlation.init, Comoment.map_init H, Variance.map_init H]
  · intro s x
    simp only [Correlation.map, Correlation.push, Comoment.map_push H, Variance.map_push H]
    rfl
  · intro s
    simp only [Correlation.map, Correlation.clear, Comoment.map_clear H, Variance.map_clear H]
theorem Correlation.map_value (s : Correlation w α) : φ s.value = (s.map φ).value := by
  unfold Correlation.value
  dsimp only [Correlation.map]
  rw [← Variance.map_variance H, ← Variance.map_variance H, ← H.mul, H.lt_eps, ← Comoment.map_variance H]
  split_ifs with h
  · exact H.ofNat 1
  · rw [H.div _ _ (H.good_sqrt _ (by simpa using h)), H.sqrt]

theorem Regression.map_run (ops : List (Op (α × α))) :
    (Regression.run ops : Regression w α).map φ = Regression.run (ops.map (Op.map (Prod.map φ φ))) := by
  refine runOps_natural _ _ ?_ ?_ ?_ ops
  · simp only [Regression.map, Regression.init, Comoment.map_init H, Variance.map_init H]
  · intro s x
    simp only [Regression.map, Regression.push, Comoment.map_push H, Variance.map_push H]
    rfl
  · intro s
    simp only [Regression.map, Regression.clear, Comoment.map_clear H, Variance.map_clear H]
theorem Regression.map_slope (s : Regression w α) : φ s.slope = (s.map φ).slope := by
  unfold Regression.slope
  dsimp only [Regression.map]
  rw [← Variance.map_variance H, H.beq_zero, ← Comoment.map_variance H]
  split_ifs with h
  · exact H.ofNat 0
  · exact H.div _ _ (H.good_ne _ (by simpa using h))
theorem Regression.map_at (s : Regression w α) (x : α) : φ (s.at' x) = (s.map φ).at' (φ x) := by
  unfold Regression.at'
  rw [← Regression.map_slope H]
  simp only [H.sub, H.mul]
  rfl

theorem Trend.map_run (ops : List (Op α)) : (Trend.run ops : Trend w α).map φ = Trend.run (ops.map (Op.map φ)) := by
  refine runOps_natural _ _ ?_ ?_ ?_ ops
  · simp only [Trend.map, Trend.init, Mean.map_init H]
  · intro s x
    simp only [Trend.map, Trend.push, Mean.map_push H, Mean.map_getMean H]
  · intro s
    simp only [Trend.map, Trend.clear, Mean.map_clear H]
theorem Trend.map_value (s : Trend w α) : φ s.value = (s.map φ).value := by
  unfold Trend.value
  simp only [H.add, H.mul, H.sub, H.ofNat]
  rfl

end Cumulative

/-! ### Decay filters -/
namespace Decay

/-- Apply a map to all numbers of the state. -/
def Mean.map (φ : α → β) (s : Mean α) : Mean β :=
  { meanFactor := φ s.meanFactor, normalization := φ s.normalization, sumMean := φ s.sumMean }
/-- Apply a map to all numbers of the state. -/
def Variance.map (φ : α → β) (s : Variance α) : Variance β :=
  { super := s.super.map φ, varFactor := φ s.varFactor, normalization := φ s.normalization, sumVariance := φ s.sumVariance }
/-- Apply a map to all numbers of the state. -/
def Skewness.map (φ : α → β) (s : Skewness α) : Skewness β :=
  { super := s.super.map φ, skewnessFactor := φ s.skewnessFactor, normalization := φ s.normalization
    sumSkewness := φ s.sumSkewness }
/-- Apply a map to all numbers of the state. -/
def Kurtosis.map (φ : α → β) (s : Kurtosis α) : Kurtosis β :=
  { super := s.super.map φ, kurtosisFactor := φ s.kurtosisFactor, normalization := φ s.normalization
    sumKurtosis := φ s.sumKurtosis }

variable {φ : α → β} {good : α → Prop} (H : Hom φ good)
include H

theorem Mean.map_init (f : α) : (Mean.init f).map φ = Mean.init (φ f) := by
  simp only [Mean.map, Mean.init, H.ofNat]
theorem Mean.map_clear (s : Mean α) : s.clear.map φ = (s.map φ).clear := by
  simp only [Mean.map, Mean.clear, H.ofNat]
theorem Mean.map_mean (s : Mean α) : φ s.mean = (s.map φ).mean := by
  unfold Mean.mean
  simp only [Mean.map, H.pos_iff]
  split_ifs with h
  · exact H.div _ _ (H.good_pos _ h)
  · exact H.ofNat 0
theorem Mean.map_push (s : Mean α) (x : α) : (s.push x).map φ = (s.map φ).push (φ x) := by
  simp only [Mean.map, Mean.push, H.add, H.mul, H.sub, H.ofNat]
theorem Mean.map_run (f : α) (ops : List (Op α)) : (Mean.run f ops).map φ = Mean.run (φ f) (ops.map (Op.map φ)) :=
  runOps_natural _ φ (Mean.map_init H f) (Mean.map_push H) (Mean.map_clear H) ops

theorem Variance.map_init (f g : α) : (Variance.init f g).map φ = Variance.init (φ f) (φ g) := by
  simp only [Variance.map, Variance.init, H.ofNat, Mean.map_init H]
theorem Variance.map_clear (s : Variance α) : s.clear.map φ = (s.map φ).clear := by
  simp only [Variance.map, Variance.clear, H.ofNat, Mean.map_clear H]
theorem Variance.map_variance (s : Variance α) : φ s.variance = (s.map φ).variance := by
  unfold Variance.variance
  simp only [Variance.map, H.pos_iff]
  split_ifs with h
  · exact H.div _ _ (H.good_pos _ h)
  · exact H.ofNat 0
theorem Variance.map_push (s : Variance α) (x : α) : (s.push x).map φ = (s.map φ).push (φ x) := by
  simp only [Variance.map, Variance.push, H.add, H.mul, H.sub, H.ofNat, Mean.map_push H, Mean.map_mean H]
theorem Variance.map_run (f g : α) (ops : List (Op α)) :
    (Variance.run f g ops).map φ = Variance.run (φ f) (φ g) (ops.map (Op.map φ)) :=
  runOps_natural _ φ (Variance.map_init H f g) (Variance.map_push H) (Variance.map_clear H) ops

theorem Skewness.map_init (f g h : α) : (Skewness.init f g h).map φ = Skewness.init (φ f) (φ g) (φ h) := by
  simp only [Skewness.map, Skewness.init, H.ofNat, Variance.map_init H]
theorem Skewness.map_clear (s : Skewness α) : s.clear.map φ = (s.map φ).clear := by
  simp only [Skewness.map, Skewness.clear, H.ofNat, Variance.map_clear H]
theorem Skewness.map_skewness (s : Skewness α) : φ s.skewness = (s.map φ).skewness := by
  unfold Skewness.skewness
  simp only [Skewness.map, H.pos_iff, ← Variance.map_variance H, H.eps_lt]
  split_ifs with h h'
  · rw [H.div _ _ (H.good_pos _ h), H.div _ _ (H.good_mul_sqrt _), H.mul, H.sqrt]
  · exact H.ofNat 0
  · exact H.ofNat 0
theorem Skewness.map_push (s : Skewness α) (x : α) : (s.push x).map φ = (s.map φ).push (φ x) := by
  simp only [Skewness.map, Skewness.push, H.add, H.mul, H.sub, H.ofNat, Variance.map_push H, Variance.mean, Mean.map_mean H]
  rw [← Variance.map_push H]
  rfl
theorem Skewness.map_run (f g h : α) (ops : List (Op α)) :
    (Skewness.run f g h ops).map φ = Skewness.run (φ f) (φ g) (φ h) (ops.map (Op.map φ)) :=
  runOps_natural _ φ (Skewness.map_init H f g h) (Skewness.map_push H) (Skewness.map_clear H) ops

theorem Kurtosis.map_init (f g h k : α) : (Kurtosis.init f g h k).map φ = Kurtosis.init (φ f) (φ g) (φ h) (φ k) := by
  simp only [Kurtosis.map, Kurtosis.init, H.ofNat, Skewness.map_init H]
theorem Kurtosis.map_clear (s : Kurtosis α) : s.clear.map φ = (s.map φ).clear := by
  simp only [Kurtosis.map, Kurtosis.clear, H.ofNat, Skewness.map_clear H]
theorem Kurtosis.map_kurtosis (s : Kurtosis α) : φ s.kurtosis = (s.map φ).kurtosis := by
  unfold Kurtosis.kurtosis Skewness.variance
  simp only [Kurtosis.map, Skewness.map, H.pos_iff, ← Variance.map_variance H, H.eps_lt]
  split_ifs with h h'
  · rw [H.div _ _ (H.good_pos _ h), H.div _ _ (H.good_sq _), H.mul]
  · exact H.ofNat 0
  · exact H.ofNat 0
theorem Kurtosis.map_push (s : Kurtosis α) (x : α) : (s.push x).map φ = (s.map φ).push (φ x) := by
  simp only [Kurtosis.map, Kurtosis.push, H.add, H.mul, H.sub, H.ofNat, Skewness.map_push H, Skewness.mean, Variance.mean,
    Mean.map_mean H]
  rw [← Skewness.map_push H]
  rfl
theorem Kurtosis.map_run (f g h k : α) (ops : List (Op α)) :
    (Kurtosis.run f g h k ops).map φ = Kurtosis.run (φ f) (φ g) (φ h) (φ k) (ops.map (Op.map φ)) :=
  runOps_natural _ φ (Kurtosis.map_init H f g h k) (Kurtosis.map_push H) (Kurtosis.map_clear H) ops

theorem Exponential.map_value (num : Int) (den : Nat) (ops : List (Op α)) :
    φ (Exponential.run num den ops).value = (Exponential.run num den (ops.map (Op.map φ))).value := by
  have h := runOps_natural (fun s : Exponential α => (⟨s.super.map φ⟩ : Exponential β)) φ
    (i := Exponential.init num den) (p := Exponential.push) (c := Exponential.clear)
    (i' := Exponential.init num den) (p' := Exponential.push) (c' := Exponential.clear)
    (by simp only [Exponential.init, Mean.map_init H, H.divNat, H.ofInt])
    (fun s x => by simp only [Exponential.push, Mean.map_push H]) (fun s => by simp only [Exponential.clear, Mean.map_clear H]) ops
  unfold Exponential.run
  rw [← h]
  exact Mean.map_mean H _

end Decay
end Verif
