import Verif.Proofs.Negation
import Verif.Proofs.History
import Verif.Statement
import Verif.Model.Cumulative
import Verif.Model.Decay
import Verif.Model.Window
import Verif.Model.Interim
import Verif.Model.Impulse
import Verif.Proofs.Double
/-
C79 - C81: changing the sign of the data, with rounding.  `F.Odd` holds for every IEEE format
(`ieee_odd`) and for exact arithmetic (`exact_odd`).  The data are arbitrary: infinities and NaN are
included, and overflow may occur.
-/
namespace Verif.Props
open Scalar

variable {w : Nat} {F : Fmt}

/-- `double` is symmetric. -/
theorem binary64_odd : binary64.Odd := ieee_odd 53 (-1074) 1024

/-- Change the sign of every data point. -/
def negOps (ops : List (Op (X F))) : List (Op (X F)) := ops.map (Op.map X.neg)

/-- Change the sign of every x-coordinate. -/
def negXOps (ops : List (Op (X F × X F))) : List (Op (X F × X F)) := ops.map (Op.map fun q => (q.1.neg, q.2))

/-- Change the sign of every y-coordinate. -/
def negYOps (ops : List (Op (X F × X F))) : List (Op (X F × X F)) := ops.map (Op.map fun q => (q.1, q.2.neg))

/-- A map between the states that commutes with the calls commutes with every history of calls. -/
theorem runOps_hom {σ τ β γ : Type} (φ : σ → τ) (f : β → γ) {init : σ} {push : σ → β → σ} {clear : σ → σ}
    {init' : τ} {push' : τ → γ → τ} {clear' : τ → τ} (hi : init' = φ init) (hp : ∀ s x, push' (φ s) (f x) = φ (push s x))
    (hc : ∀ s, clear' (φ s) = φ (clear s)) (ops : List (Op β)) :
    runOps init' push' clear' (ops.map (Op.map f)) = φ (runOps init push clear ops) := by
  subst hi
  unfold runOps
  generalize init = s
  induction ops generalizing s with
  | nil => rfl
  | cons op ops ih =>
    cases op with
    | push x =>
      show List.foldl _ (push' (φ s) (f x)) _ = _
      rw [hp]; exact ih _
    | clear =>
      show List.foldl _ (clear' (φ s)) _ = _
      rw [hc]; exact ih _

/-! ### C79: cumulative filters -/

namespace Neg
open Cumulative

/-- The state for the negated data. -/
def mean (s : Mean w (X F)) : Mean w (X F) := { s with mean := s.mean.neg }
@[inherit_doc mean] def variance (s : Variance w (X F)) : Variance w (X F) := { s with super := mean s.super }
@[inherit_doc mean] def skewness (s : Skewness w (X F)) : Skewness w (X F) :=
  { super := variance s.super, sumSkewness := s.sumSkewness.neg }
@[inherit_doc mean] def kurtosis (s : Kurtosis w (X F)) : Kurtosis w (X F) := { s with super := skewness s.super }
@[inherit_doc mean] def trend (s : Trend w (X F)) : Trend w (X F) := { center := mean s.center, grand := mean s.grand }

variable (hF : F.Odd)
include hF

theorem mean_init : (Mean.init : Mean w (X F)) = mean Mean.init := by
  show (⟨ofNat 0, 0⟩ : Mean w (X F)) = ⟨(ofNat 0 : X F).neg, 0⟩
  rw [hF.neg_zero']

theorem mean_clear (s : Mean w (X F)) : (mean s).clear = mean s.clear := mean_init hF

theorem mean_push (s : Mean w (X F)) (x : X F) : (mean s).push x.neg = mean (s.push x) := by
  show (⟨s.mean.neg + (x.neg - s.mean.neg) / ofSize (s.count + 1), s.count + 1⟩ : Mean w (X F))
    = ⟨(s.mean + (x - s.mean) / ofSize (s.count + 1)).neg, s.count + 1⟩
  rw [hF.sub, hF.div_left, hF.add]

theorem variance_init : (Variance.init : Variance w (X F)) = variance Variance.init := by
  show (⟨Mean.init, ofNat 0⟩ : Variance w (X F)) = ⟨mean Mean.init, ofNat 0⟩
  rw [← mean_init hF]

theorem variance_clear (s : Variance w (X F)) : (variance s).clear = variance s.clear := variance_init hF

theorem variance_push (s : Variance w (X F)) (x : X F) : (variance s).push x.neg = variance (s.push x) := by
  show (⟨(mean s.super).push x.neg,
      s.sumVariance + (x.neg - s.super.mean.neg) * (x.neg - ((mean s.super).push x.neg).mean)⟩ : Variance w (X F))
    = ⟨mean (s.super.push x), s.sumVariance + (x - s.super.mean) * (x - (s.super.push x).mean)⟩
  rw [mean_push hF]
  show (⟨_, s.sumVariance + (x.neg - s.super.mean.neg) * (x.neg - (s.super.push x).mean.neg)⟩ : Variance w (X F)) = _
  rw [hF.sub, hF.sub, hF.mul]

theorem skewness_init : (Skewness.init : Skewness w (X F)) = skewness Skewness.init := by
  show (⟨Variance.init, ofNat 0⟩ : Skewness w (X F)) = ⟨variance Variance.init, (ofNat 0 : X F).neg⟩
  rw [← variance_init hF, hF.neg_zero']

theorem skewness_clear (s : Skewness w (X F)) : (skewness s).clear = skewness s.clear := skewness_init hF

theorem skewness_push (s : Skewness w (X F)) (x : X F) : (skewness s).push x.neg = skewness (s.push x) := by
  unfold Skewness.push
  show (⟨(variance s.super).push x.neg, s.sumSkewness.neg +
      ((x.neg - s.super.super.mean.neg) * ((x.neg - s.super.super.mean.neg) / ofSize (s.size + 1)) * ofSize (s.size + 1 - 1)
        * ofSize (s.size + 1 - 2) - ofNat 3 * s.super.sumVariance) * ((x.neg - s.super.super.mean.neg) / ofSize (s.size + 1))⟩
      : Skewness w (X F)) = skewness ⟨s.super.push x, _⟩
  rw [variance_push hF, hF.sub, hF.div_left, hF.mul, hF.mul_right, hF.add]
  rfl

theorem kurtosis_init : (Kurtosis.init : Kurtosis w (X F)) = kurtosis Kurtosis.init := by
  show (⟨Skewness.init, ofNat 0⟩ : Kurtosis w (X F)) = ⟨skewness Skewness.init, ofNat 0⟩
  rw [← skewness_init hF]

theorem kurtosis_clear (s : Kurtosis w (X F)) : (kurtosis s).clear = kurtosis s.clear := kurtosis_init hF

theorem kurtosis_push (s : Kurtosis w (X F)) (x : X F) : (kurtosis s).push x.neg = kurtosis (s.push x) := by
  unfold Kurtosis.push
  show (⟨(skewness s.super).push x.neg, s.sumKurtosis +
      (((x.neg - s.super.super.super.mean.neg) * ((x.neg - s.super.super.super.mean.neg) / ofSize (s.size + 1)) * ofSize (s.size + 1 - 1)
        * ofSize ((s.size + 1) * (s.size + 1 - 3) + 3) + ofNat 6 * s.super.super.sumVariance)
          * ((x.neg - s.super.super.super.mean.neg) / ofSize (s.size + 1)) - ofNat 4 * s.super.sumSkewness.neg)
        * ((x.neg - s.super.super.super.mean.neg) / ofSize (s.size + 1))⟩
      : Kurtosis w (X F)) = kurtosis ⟨s.super.push x, _⟩
  simp only [skewness_push hF, hF.sub, hF.div_left, hF.mul_left, hF.mul_right, Fmt.Odd.neg_neg]
  rfl

theorem trend_init : (Trend.init : Trend w (X F)) = trend Trend.init := by
  show (⟨Mean.init, Mean.init⟩ : Trend w (X F)) = ⟨mean Mean.init, mean Mean.init⟩
  rw [← mean_init hF]

theorem trend_clear (s : Trend w (X F)) : (trend s).clear = trend s.clear := trend_init hF

theorem trend_push (s : Trend w (X F)) (x : X F) : (trend s).push x.neg = trend (s.push x) := by
  show (⟨(mean s.center).push x.neg, (mean s.grand).push ((mean s.center).push x.neg).mean⟩ : Trend w (X F))
    = ⟨mean (s.center.push x), mean (s.grand.push (s.center.push x).mean)⟩
  rw [mean_push hF]
  show (⟨_, (mean s.grand).push (s.center.push x).mean.neg⟩ : Trend w (X F)) = _
  rw [mean_push hF]

theorem mean_run (ops : List (Op (X F))) : (Mean.run (negOps ops) : Mean w (X F)) = mean (Mean.run ops) :=
  runOps_hom mean X.neg (mean_init hF) (mean_push hF) (mean_clear hF) ops
theorem variance_run (ops : List (Op (X F))) : (Variance.run (negOps ops) : Variance w (X F)) = variance (Variance.run ops) :=
  runOps_hom variance X.neg (variance_init hF) (variance_push hF) (variance_clear hF) ops
theorem skewness_run (ops : List (Op (X F))) : (Skewness.run (negOps ops) : Skewness w (X F)) = skewness (Skewness.run ops) :=
  runOps_hom skewness X.neg (skewness_init hF) (skewness_push hF) (skewness_clear hF) ops
theorem kurtosis_run (ops : List (Op (X F))) : (Kurtosis.run (negOps ops) : Kurtosis w (X F)) = kurtosis (Kurtosis.run ops) :=
  runOps_hom kurtosis X.neg (kurtosis_init hF) (kurtosis_push hF) (kurtosis_clear hF) ops
theorem trend_run (ops : List (Op (X F))) : (Trend.run (negOps ops) : Trend w (X F)) = trend (Trend.run ops) :=
  runOps_hom trend X.neg (trend_init hF) (trend_push hF) (trend_clear hF) ops

end Neg

open Cumulative in
/-- C79: mean, unbiased mean and trend change their sign with the data; variance, unbiased variance, kurtosis and unbiased
kurtosis do not change.  This is bitwise equality of the computed numbers. -/
theorem C79_cumulative (hF : F.Odd) (ops : List (Op (X F))) :
    (Mean.run (negOps ops) : Mean w (X F)).getMean = ((Mean.run ops : Mean w (X F)).getMean).neg
    ∧ (Mean.run (negOps ops) : Mean w (X F)).unbiasedMean = ((Mean.run ops : Mean w (X F)).unbiasedMean).neg
    ∧ (Trend.run (negOps ops) : Trend w (X F)).value = ((Trend.run ops : Trend w (X F)).value).neg
    ∧ (Variance.run (negOps ops) : Variance w (X F)).variance = (Variance.run ops : Variance w (X F)).variance
    ∧ (Variance.run (negOps ops) : Variance w (X F)).unbiasedVariance = (Variance.run ops : Variance w (X F)).unbiasedVariance
    ∧ (Kurtosis.run (negOps ops) : Kurtosis w (X F)).kurtosis = (Kurtosis.run ops : Kurtosis w (X F)).kurtosis
    ∧ (Kurtosis.run (negOps ops) : Kurtosis w (X F)).unbiasedKurtosis = (Kurtosis.run ops : Kurtosis w (X F)).unbiasedKurtosis := by
  refine ⟨?_, ?_, ?_, ?_, ?_, ?_, ?_⟩
  · rw [Neg.mean_run hF]; rfl
  · rw [Neg.mean_run hF]
    show (Mean.run ops : Mean w (X F)).mean.neg * _ / _ = _
    rw [hF.mul_left, hF.div_left]; rfl
  · rw [Neg.trend_run hF]
    show (Trend.run ops : Trend w (X F)).center.mean.neg
      + ofNat 2 * ((Trend.run ops : Trend w (X F)).center.mean.neg - (Trend.run ops : Trend w (X F)).grand.mean.neg) = _
    rw [hF.sub, hF.mul_right, hF.add]; rfl
  · rw [Neg.variance_run hF]; rfl
  · rw [Neg.variance_run hF]; rfl
  · rw [Neg.kurtosis_run hF]; rfl
  · rw [Neg.kurtosis_run hF]; rfl

/-! ### C79: window filters -/

namespace Neg
open Window
variable {N : Nat}

/-- The state for the negated data. -/
def ring (r : Ring N (X F)) : Ring N (X F) := ⟨r.items.map X.neg⟩
@[inherit_doc ring] def wmean (s : Window.Mean N (X F)) : Window.Mean N (X F) := { window := ring s.window, mean := s.mean.neg }
@[inherit_doc ring] def wvariance (s : Window.Variance N (X F)) : Window.Variance N (X F) := { s with super := wmean s.super }

theorem ring_map_full {β : Type} (f : β → β) (r : Ring N β) : (⟨r.items.map f⟩ : Ring N β).full = r.full := by
  simp [Ring.full]

theorem ring_map_push {β : Type} (f : β → β) (r : Ring N β) (x : β) :
    (⟨r.items.map f⟩ : Ring N β).pushBack (f x) = ⟨(r.pushBack x).items.map f⟩ := by
  unfold Ring.pushBack
  rw [ring_map_full]
  by_cases h : r.full = true <;> simp [h]

theorem ring_map_front {β : Type} (f : β → β) (r : Ring N β) : (⟨r.items.map f⟩ : Ring N β).front = r.front.map f := by
  simp [Ring.front]

theorem ring_map_size {β : Type} (f : β → β) (r : Ring N β) : (⟨r.items.map f⟩ : Ring N β).size = r.size := by
  simp [Ring.size]

variable (hF : F.Odd)
include hF

theorem wmean_push (s : Window.Mean N (X F)) (x : X F) : (wmean s).push x.neg = (s.push x).map wmean := by
  unfold Window.Mean.push
  have h1 : (wmean s).full = s.full := ring_map_full X.neg _
  have h2 : (wmean s).window.front = s.window.front.map X.neg := ring_map_front X.neg _
  have h3 : (wmean s).size = s.size := ring_map_size X.neg _
  have h4 : (wmean s).window.pushBack x.neg = ring (s.window.pushBack x) := ring_map_push X.neg _ _
  rw [h1, h2, h3, h4]
  by_cases h : s.full = true
  · rw [if_pos h, if_pos h]
    cases s.window.front with
    | none => rfl
    | some front =>
      show some (⟨_, s.mean.neg + (x.neg - front.neg) / ofNat s.size⟩ : Window.Mean N (X F)) = some ⟨_, _⟩
      rw [hF.sub, hF.div_left, hF.add]
  · rw [if_neg h, if_neg h]
    show some (⟨_, s.mean.neg + (x.neg - s.mean.neg) / ofNat (s.size + 1)⟩ : Window.Mean N (X F)) = some ⟨_, _⟩
    rw [hF.sub, hF.div_left, hF.add]

theorem wdelta (m x o : X F) : Window.Variance.delta m.neg x.neg o.neg = Window.Variance.delta m x o := by
  unfold Window.Variance.delta
  rw [hF.sub, hF.sub, hF.mul]

theorem wvariance_push (s : Window.Variance N (X F)) (x : X F) : (wvariance s).push x.neg = (s.push x).map wvariance := by
  unfold Window.Variance.push
  have h1 : (wvariance s).super.full = s.super.full := ring_map_full X.neg _
  have h2 : (wvariance s).super.window.front = s.super.window.front.map X.neg := ring_map_front X.neg _
  have h3 : (wvariance s).size = s.size := ring_map_size X.neg _
  have h4 : (wvariance s).super.window.pushBack x.neg = ring (s.super.window.pushBack x) := ring_map_push X.neg _ _
  have h5 : (wvariance s).super.mean = s.super.mean.neg := rfl
  have h6 : (wvariance s).super.getMean = s.super.mean.neg := rfl
  have h7 : (wvariance s).sumVariance = s.sumVariance := rfl
  rw [h1, h2, h3, h4, h5, h6, h7]
  by_cases h : s.super.full = true
  · rw [if_pos h, if_pos h]
    cases s.super.window.front with
    | none => rfl
    | some front =>
      show some (⟨⟨_, s.super.mean.neg + (x.neg - front.neg) / ofNat s.size⟩,
        s.sumVariance + Window.Variance.delta (s.super.mean.neg + (x.neg - front.neg) / ofNat s.size) x.neg s.super.mean.neg
          - Window.Variance.delta (s.super.mean.neg + (x.neg - front.neg) / ofNat s.size) front.neg s.super.mean.neg⟩ : Window.Variance N (X F))
        = some (wvariance ⟨⟨_, _⟩, _⟩)
      rw [hF.sub, hF.div_left, hF.add, wdelta hF, wdelta hF]
      rfl
  · rw [if_neg h, if_neg h]
    show some (⟨⟨_, s.super.mean.neg + (x.neg - s.super.mean.neg) / ofNat (s.size + 1)⟩,
        s.sumVariance + Window.Variance.delta (s.super.mean.neg + (x.neg - s.super.mean.neg) / ofNat (s.size + 1)) x.neg s.super.mean.neg⟩ :
          Window.Variance N (X F))
        = some (wvariance ⟨⟨_, _⟩, _⟩)
    rw [hF.sub, hF.div_left, hF.add, wdelta hF]
    rfl

theorem wmean_run (ops : List (Op (X F))) : (Window.Mean.run (negOps ops) : Option (Window.Mean N (X F))) = (Window.Mean.run ops).map wmean := by
  refine runOps_hom (Option.map wmean) X.neg ?_ ?_ ?_ ops
  · show some _ = some (⟨⟨[]⟩, (ofNat 0 : X F).neg⟩ : Window.Mean N (X F))
    rw [hF.neg_zero']; rfl
  · intro s x
    cases s with
    | none => rfl
    | some s => exact wmean_push hF s x
  · intro s
    cases s with
    | none => rfl
    | some s =>
      show some _ = some (⟨⟨[]⟩, (ofNat 0 : X F).neg⟩ : Window.Mean N (X F))
      rw [hF.neg_zero']; rfl

theorem wvariance_run (ops : List (Op (X F))) :
    (Window.Variance.run (negOps ops) : Option (Window.Variance N (X F))) = (Window.Variance.run ops).map wvariance := by
  refine runOps_hom (Option.map wvariance) X.neg ?_ ?_ ?_ ops
  · show some _ = some (⟨⟨⟨[]⟩, (ofNat 0 : X F).neg⟩, _⟩ : Window.Variance N (X F))
    rw [hF.neg_zero']; rfl
  · intro s x
    cases s with
    | none => rfl
    | some s => exact wvariance_push hF s x
  · intro s
    cases s with
    | none => rfl
    | some s =>
      show some _ = some (⟨⟨⟨[]⟩, (ofNat 0 : X F).neg⟩, _⟩ : Window.Variance N (X F))
      rw [hF.neg_zero']; rfl

end Neg

/-- C79: the window mean changes its sign, the window variances do not change. -/
theorem C79_window {N : Nat} (hF : F.Odd) (ops : List (Op (X F))) :
    (Window.Mean.run (negOps ops) : Option (Window.Mean N (X F))).map (·.getMean)
      = (Window.Mean.run ops : Option (Window.Mean N (X F))).map (·.getMean.neg)
    ∧ (Window.Variance.run (negOps ops) : Option (Window.Variance N (X F))).map (fun s => (s.getMean, s.variance, s.unbiasedVariance))
      = (Window.Variance.run ops : Option (Window.Variance N (X F))).map (fun s => (s.getMean.neg, s.variance, s.unbiasedVariance)) := by
  constructor
  · rw [Neg.wmean_run hF, Option.map_map]; rfl
  · rw [Neg.wvariance_run hF, Option.map_map]
    congr 1
    funext s
    have h3 : (Neg.wvariance s).size = s.size := Neg.ring_map_size X.neg _
    show ((Neg.wvariance s).getMean, (Neg.wvariance s).variance, (Neg.wvariance s).unbiasedVariance) = _
    unfold Window.Variance.variance Window.Variance.unbiasedVariance
    rw [h3]
    rfl

/-! ### C79: decaying filters -/

namespace Neg
open Decay

/-- The state for the negated data. -/
def dmean (s : Decay.Mean (X F)) : Decay.Mean (X F) := { s with sumMean := s.sumMean.neg }
@[inherit_doc dmean] def dvariance (s : Decay.Variance (X F)) : Decay.Variance (X F) := { s with super := dmean s.super }
@[inherit_doc dmean] def dskewness (s : Decay.Skewness (X F)) : Decay.Skewness (X F) :=
  { s with super := dvariance s.super, sumSkewness := s.sumSkewness.neg }
@[inherit_doc dmean] def dkurtosis (s : Decay.Kurtosis (X F)) : Decay.Kurtosis (X F) := { s with super := dskewness s.super }

variable (hF : F.Odd)
include hF

theorem dmean_get (s : Decay.Mean (X F)) : (dmean s).mean = s.mean.neg := by
  show (if lt (ofNat 0) s.normalization = true then s.sumMean.neg / s.normalization else ofNat 0) = _
  rw [hF.div_left, hF.cond]; rfl

theorem dmean_push (s : Decay.Mean (X F)) (x : X F) : (dmean s).push x.neg = dmean (s.push x) := by
  show (⟨_, _, s.sumMean.neg + s.meanFactor * (x.neg - s.sumMean.neg)⟩ : Decay.Mean (X F)) = ⟨_, _, _⟩
  rw [hF.sub, hF.mul_right, hF.add]
  rfl

theorem ddelta (s : Decay.Mean (X F)) (x : X F) : x.neg - ((dmean s).push x.neg).mean = (x - (s.push x).mean).neg := by
  rw [dmean_push hF, dmean_get hF, hF.sub]

theorem dvariance_push (s : Decay.Variance (X F)) (x : X F) : (dvariance s).push x.neg = dvariance (s.push x) := by
  show (⟨(dmean s.super).push x.neg, _, _, s.sumVariance + s.varFactor *
    ((x.neg - ((dmean s.super).push x.neg).mean) * (x.neg - ((dmean s.super).push x.neg).mean) - s.sumVariance)⟩ : Decay.Variance (X F)) = ⟨_, _, _, _⟩
  rw [ddelta hF, dmean_push hF, hF.mul]
  rfl

theorem dskewness_push (s : Decay.Skewness (X F)) (x : X F) : (dskewness s).push x.neg = dskewness (s.push x) := by
  show (⟨(dvariance s.super).push x.neg, _, _, s.sumSkewness.neg + s.skewnessFactor *
    ((x.neg - ((dmean s.super.super).push x.neg).mean) * (x.neg - ((dmean s.super.super).push x.neg).mean)
      * (x.neg - ((dmean s.super.super).push x.neg).mean) - s.sumSkewness.neg)⟩ : Decay.Skewness (X F)) = ⟨_, _, _, _⟩
  rw [ddelta hF, dvariance_push hF, hF.mul, hF.mul_right, hF.sub, hF.mul_right, hF.add]
  rfl

theorem dkurtosis_push (s : Decay.Kurtosis (X F)) (x : X F) : (dkurtosis s).push x.neg = dkurtosis (s.push x) := by
  show (⟨(dskewness s.super).push x.neg, _, _, s.sumKurtosis + s.kurtosisFactor *
    ((x.neg - ((dmean s.super.super.super).push x.neg).mean) * (x.neg - ((dmean s.super.super.super).push x.neg).mean)
      * (x.neg - ((dmean s.super.super.super).push x.neg).mean) * (x.neg - ((dmean s.super.super.super).push x.neg).mean)
      - s.sumKurtosis)⟩ : Decay.Kurtosis (X F)) = ⟨_, _, _, _⟩
  simp only [ddelta hF, dskewness_push hF, hF.mul_left, hF.mul_right, Fmt.Odd.neg_neg]
  rfl

theorem dmean_zero (f n : X F) : (⟨f, n, ofNat 0⟩ : Decay.Mean (X F)) = dmean ⟨f, n, ofNat 0⟩ := by
  show _ = (⟨f, n, (ofNat 0 : X F).neg⟩ : Decay.Mean (X F))
  rw [hF.neg_zero']

theorem dmean_run (f : X F) (ops : List (Op (X F))) : Decay.Mean.run f (negOps ops) = dmean (Decay.Mean.run f ops) :=
  runOps_hom dmean X.neg (dmean_zero hF _ _) (dmean_push hF) (fun _ => dmean_zero hF _ _) ops

theorem dvariance_zero (f n g m v : X F) :
    (⟨⟨f, n, ofNat 0⟩, g, m, v⟩ : Decay.Variance (X F)) = dvariance ⟨⟨f, n, ofNat 0⟩, g, m, v⟩ := by
  show _ = (⟨⟨f, n, (ofNat 0 : X F).neg⟩, g, m, v⟩ : Decay.Variance (X F))
  rw [hF.neg_zero']

theorem dvariance_run (f g : X F) (ops : List (Op (X F))) : Decay.Variance.run f g (negOps ops) = dvariance (Decay.Variance.run f g ops) :=
  runOps_hom dvariance X.neg (dvariance_zero hF _ _ _ _ _) (dvariance_push hF) (fun _ => dvariance_zero hF _ _ _ _ _) ops

theorem dskewness_zero (f n g m v h k : X F) :
    (⟨⟨⟨f, n, ofNat 0⟩, g, m, v⟩, h, k, ofNat 0⟩ : Decay.Skewness (X F)) = dskewness ⟨⟨⟨f, n, ofNat 0⟩, g, m, v⟩, h, k, ofNat 0⟩ := by
  show _ = (⟨⟨⟨f, n, (ofNat 0 : X F).neg⟩, g, m, v⟩, h, k, (ofNat 0 : X F).neg⟩ : Decay.Skewness (X F))
  rw [hF.neg_zero']

theorem dskewness_run (f g h : X F) (ops : List (Op (X F))) :
    Decay.Skewness.run f g h (negOps ops) = dskewness (Decay.Skewness.run f g h ops) :=
  runOps_hom dskewness X.neg (dskewness_zero hF _ _ _ _ _ _ _) (dskewness_push hF) (fun _ => dskewness_zero hF _ _ _ _ _ _ _) ops

theorem dkurtosis_zero (f n g m v h k a b c : X F) :
    (⟨⟨⟨⟨f, n, ofNat 0⟩, g, m, v⟩, h, k, ofNat 0⟩, a, b, c⟩ : Decay.Kurtosis (X F))
      = dkurtosis ⟨⟨⟨⟨f, n, ofNat 0⟩, g, m, v⟩, h, k, ofNat 0⟩, a, b, c⟩ := by
  show _ = (⟨⟨⟨⟨f, n, (ofNat 0 : X F).neg⟩, g, m, v⟩, h, k, (ofNat 0 : X F).neg⟩, a, b, c⟩ : Decay.Kurtosis (X F))
  rw [hF.neg_zero']

theorem dkurtosis_run (f g h k : X F) (ops : List (Op (X F))) :
    Decay.Kurtosis.run f g h k (negOps ops) = dkurtosis (Decay.Kurtosis.run f g h k ops) :=
  runOps_hom dkurtosis X.neg (dkurtosis_zero hF _ _ _ _ _ _ _ _ _ _) (dkurtosis_push hF)
    (fun _ => dkurtosis_zero hF _ _ _ _ _ _ _ _ _ _) ops

end Neg

/-- C79: decaying mean and skewness change their sign, variance and kurtosis do not change. -/
theorem C79_decay (hF : F.Odd) (f g h k : X F) (ops : List (Op (X F))) :
    (Decay.Mean.run f (negOps ops)).mean = ((Decay.Mean.run f ops).mean).neg
    ∧ (Decay.Variance.run f g (negOps ops)).variance = (Decay.Variance.run f g ops).variance
    ∧ (Decay.Skewness.run f g h (negOps ops)).skewness = ((Decay.Skewness.run f g h ops).skewness).neg
    ∧ (Decay.Kurtosis.run f g h k (negOps ops)).kurtosis = (Decay.Kurtosis.run f g h k ops).kurtosis := by
  refine ⟨?_, ?_, ?_, ?_⟩
  · rw [Neg.dmean_run hF, Neg.dmean_get hF]
  · rw [Neg.dvariance_run hF]; rfl
  · rw [Neg.dskewness_run hF]
    generalize Decay.Skewness.run f g h ops = s
    show (if lt (ofNat 0) s.normalization = true then
        (if lt eps s.super.variance = true then s.sumSkewness.neg / (s.super.variance * Scalar.sqrt s.super.variance) / s.normalization else ofNat 0)
      else ofNat 0) = _
    rw [hF.div_left, hF.div_left, hF.cond, hF.cond]
    rfl
  · rw [Neg.dkurtosis_run hF]; rfl

/-! ### C79: interim filters -/

namespace Neg
open Interim
variable {W : Nat} {σ β : Type} [Block σ w β]

/-- The state of an interim filter with a map applied to both blocks. -/
def interim (φ : σ → σ) (s : Interim W σ) : Interim W σ := ⟨φ s.active, φ s.passive⟩

/-- A map of the cumulative filter that commutes with all calls. -/
structure Hom (φ : σ → σ) (f : β → β) : Prop where
  init : (Block.init : σ) = φ Block.init
  push : ∀ (s : σ) x, Block.push (φ s) (f x) = φ (Block.push s x)
  clear : ∀ s : σ, Block.clear (φ s) = φ (Block.clear s)
  size : ∀ s : σ, Block.size (φ s) = Block.size s

theorem interim_run {φ : σ → σ} {f : β → β} (h : Hom φ f) (ops : List (Op β)) :
    (Interim.run (ops.map (Op.map f)) : Interim W σ) = interim φ (Interim.run ops) := by
  refine runOps_hom (interim φ) f ?_ ?_ ?_ ops
  · show (⟨Block.init, Block.init⟩ : Interim W σ) = ⟨φ Block.init, φ Block.init⟩
    rw [← h.init]
  · intro s x
    unfold Interim.push
    rw [show Block.size (interim φ s).active = Block.size s.active from h.size _]
    by_cases hc : Block.size s.active ≥ BitVec.ofNat w W
    · simp only [hc, if_true]
      show (⟨Block.push (Block.clear (φ s.passive)) (f x), φ s.active⟩ : Interim W σ) = ⟨φ (Block.push (Block.clear s.passive) x), φ s.active⟩
      rw [h.clear, h.push]
    · simp only [hc, if_false]
      show (⟨Block.push (φ s.active) (f x), φ s.passive⟩ : Interim W σ) = ⟨φ (Block.push s.active x), φ s.passive⟩
      rw [h.push]
  · intro s
    show (⟨Block.clear (φ s.active), Block.clear (φ s.passive)⟩ : Interim W σ) = ⟨φ (Block.clear s.active), φ (Block.clear s.passive)⟩
    rw [h.clear, h.clear]

theorem interim_empty {φ : σ → σ} {f : β → β} (h : Hom φ f) (s : Interim W σ) : (interim φ s).passiveEmpty = s.passiveEmpty := by
  unfold Interim.passiveEmpty
  rw [show Block.size (interim φ s).passive = Block.size s.passive from h.size _]

theorem interim_mean (hF : F.Odd) {φ : σ → σ} {f : β → β} (h : Hom φ f) {get : σ → X F} (hg : ∀ s, get (φ s) = (get s).neg) (s : Interim W σ) :
    (interim φ s).meanWith get = (s.meanWith get).neg := by
  unfold Interim.meanWith
  rw [interim_empty h, show Block.size (interim φ s).active = Block.size s.active from h.size _]
  split
  · exact hg _
  · show (get (φ s.passive) * _ + get (φ s.active) * _) / _ = _
    rw [hg, hg, hF.mul_left, hF.mul_left, hF.add, hF.div_left]

theorem interim_same {φ : σ → σ} {f : β → β} (h : Hom φ f) {get : σ → X F} (hg : ∀ s, get (φ s) = get s) (s : Interim W σ) :
    (interim φ s).varianceWith get = s.varianceWith get ∧ (interim φ s).blendWith get = s.blendWith get := by
  unfold Interim.varianceWith Interim.blendWith
  rw [interim_empty h, show Block.size (interim φ s).active = Block.size s.active from h.size _]
  simp only [interim, hg, and_self]

theorem interim_neg (hF : F.Odd) {φ : σ → σ} {f : β → β} (h : Hom φ f) {get : σ → X F} (hg : ∀ s, get (φ s) = (get s).neg) (s : Interim W σ) :
    (interim φ s).varianceWith get = (s.varianceWith get).neg := by
  unfold Interim.varianceWith
  rw [interim_empty h, show Block.size (interim φ s).active = Block.size s.active from h.size _]
  split
  · exact hg _
  · split
    · exact hg _
    · show (_ * get (φ s.passive) + _ * get (φ s.active)) / _ = _
      rw [hg, hg, hF.mul_right, hF.mul_right, hF.add, hF.div_left]

theorem hom_mean (hF : F.Odd) : Hom (σ := Cumulative.Mean w (X F)) mean X.neg :=
  ⟨mean_init hF, mean_push hF, mean_clear hF, fun _ => rfl⟩
theorem hom_variance (hF : F.Odd) : Hom (σ := Cumulative.Variance w (X F)) variance X.neg :=
  ⟨variance_init hF, variance_push hF, variance_clear hF, fun _ => rfl⟩
theorem hom_kurtosis (hF : F.Odd) : Hom (σ := Cumulative.Kurtosis w (X F)) kurtosis X.neg :=
  ⟨kurtosis_init hF, kurtosis_push hF, kurtosis_clear hF, fun _ => rfl⟩

end Neg

open Interim in
/-- C79: the interim mean changes its sign, interim variance and kurtosis do not change. -/
theorem C79_interim {W : Nat} (hF : F.Odd) (ops : List (Op (X F))) :
    IMean.mean (Interim.run (negOps ops) : IMean w W (X F)) = (IMean.mean (Interim.run ops : IMean w W (X F))).neg
    ∧ IVariance.variance (Interim.run (negOps ops) : IVariance w W (X F)) = IVariance.variance (Interim.run ops : IVariance w W (X F))
    ∧ IKurtosis.kurtosis (Interim.run (negOps ops) : IKurtosis w W (X F)) = IKurtosis.kurtosis (Interim.run ops : IKurtosis w W (X F)) := by
  refine ⟨?_, ?_, ?_⟩
  · rw [negOps, Neg.interim_run (Neg.hom_mean hF)]
    exact Neg.interim_mean hF (Neg.hom_mean hF) (fun _ => rfl) _
  · rw [negOps, Neg.interim_run (Neg.hom_variance hF)]
    exact (Neg.interim_same (Neg.hom_variance hF) (fun _ => rfl) _).1
  · rw [negOps, Neg.interim_run (Neg.hom_kurtosis hF)]
    exact (Neg.interim_same (Neg.hom_kurtosis hF) (fun _ => rfl) _).2

/-! ### C79: impulse response filters -/

namespace Neg
open Impulse (Deque innerProduct)

/-- The contents for the negated data. -/
def deque (d : Deque (X F)) : Deque (X F) := { d with items := d.items.map X.neg }
@[inherit_doc deque] def fir (s : Impulse.Finite (X F)) : Impulse.Finite (X F) := { s with input := deque s.input, output := s.output.neg }
@[inherit_doc deque] def iir (s : Impulse.Infinite (X F)) : Impulse.Infinite (X F) :=
  { s with inputWindow := deque s.inputWindow, outputWindow := deque s.outputWindow }

theorem deque_push (d : Deque (X F)) (x : X F) : (deque d).pushFront x.neg = deque (d.pushFront x) := by
  have h : (deque d).full = d.full := by simp [Deque.full, deque]
  unfold Deque.pushFront
  rw [h]
  cases hc : d.full <;> simp [deque]

variable (hF : F.Odd)
include hF

theorem inner (acc : X F) (xs cs : List (X F)) :
    innerProduct acc.neg (xs.map X.neg) cs = (innerProduct acc xs cs).map X.neg := by
  induction xs generalizing acc cs with
  | nil => rfl
  | cons x xs ih =>
    cases cs with
    | nil => rfl
    | cons c cs =>
      show innerProduct (acc.neg + x.neg * c) (xs.map X.neg) cs = _
      rw [hF.mul_left, hF.add, ih]; rfl

theorem inner_zero (xs cs : List (X F)) :
    innerProduct (ofNat 0) (xs.map X.neg) cs = (innerProduct (ofNat 0) xs cs).map X.neg := by
  rw [← inner hF, hF.neg_zero']

theorem fir_push (s : Impulse.Finite (X F)) (x : X F) : (fir s).push x.neg = (s.push x).map fir := by
  unfold Impulse.Finite.push
  show Option.map _ (innerProduct (ofNat 0) ((deque s.input).pushFront x.neg).items s.coefficients) = _
  rw [deque_push]
  show Option.map _ (innerProduct (ofNat 0) ((s.input.pushFront x).items.map X.neg) s.coefficients) = _
  rw [inner_zero hF, Option.map_map, Option.map_map]
  congr 1
  funext o
  show (⟨(deque s.input).pushFront x.neg, o.neg, s.coefficients⟩ : Impulse.Finite (X F)) = ⟨deque (s.input.pushFront x), o.neg, s.coefficients⟩
  rw [deque_push]

theorem fir_run (cs : List (X F)) (ops : List (Op (X F))) : Impulse.Finite.run cs (negOps ops) = (Impulse.Finite.run cs ops).map fir := by
  refine runOps_hom (Option.map fir) X.neg ?_ ?_ ?_ ops
  · show some (⟨_, ofNat 0, _⟩ : Impulse.Finite (X F)) = some ⟨_, (ofNat 0 : X F).neg, _⟩
    rw [hF.neg_zero']; rfl
  · intro s x
    cases s with
    | none => rfl
    | some s => exact fir_push hF s x
  · intro s
    cases s <;> rfl

theorem iir_push (s : Impulse.Infinite (X F)) (x : X F) : (iir s).push x.neg = (s.push x).map iir := by
  unfold Impulse.Infinite.push
  show ((innerProduct (ofNat 0) ((deque s.inputWindow).pushFront x.neg).items s.inputCoefficients).bind fun ff =>
    (innerProduct (ofNat 0) (s.outputWindow.items.map X.neg) s.outputCoefficients).bind fun fb =>
      some (⟨(deque s.inputWindow).pushFront x.neg, s.inputCoefficients, (deque s.outputWindow).pushFront ((ff - fb) / s.outputScale),
        s.outputScale, s.outputCoefficients⟩ : Impulse.Infinite (X F)))
    = Option.map iir ((innerProduct (ofNat 0) (s.inputWindow.pushFront x).items s.inputCoefficients).bind fun ff =>
    (innerProduct (ofNat 0) s.outputWindow.items s.outputCoefficients).bind fun fb =>
      some (⟨s.inputWindow.pushFront x, s.inputCoefficients, s.outputWindow.pushFront ((ff - fb) / s.outputScale),
        s.outputScale, s.outputCoefficients⟩ : Impulse.Infinite (X F)))
  rw [deque_push, show (deque (s.inputWindow.pushFront x)).items = (s.inputWindow.pushFront x).items.map X.neg from rfl]
  rw [inner_zero hF, inner_zero hF]
  cases innerProduct (ofNat 0) (s.inputWindow.pushFront x).items s.inputCoefficients with
  | none => rfl
  | some ff =>
    cases innerProduct (ofNat 0) s.outputWindow.items s.outputCoefficients with
    | none => rfl
    | some fb =>
      show some (⟨deque (s.inputWindow.pushFront x), s.inputCoefficients, (deque s.outputWindow).pushFront ((ff.neg - fb.neg) / s.outputScale),
        s.outputScale, s.outputCoefficients⟩ : Impulse.Infinite (X F)) = some ⟨_, _, deque (s.outputWindow.pushFront ((ff - fb) / s.outputScale)), _, _⟩
      rw [hF.sub, hF.div_left, deque_push]

theorem iir_run (as bs : List (X F)) (c : X F) (ops : List (Op (X F))) :
    Impulse.Infinite.run as bs c (negOps ops) = (Impulse.Infinite.run as bs c ops).map iir := by
  refine runOps_hom (Option.map iir) X.neg ?_ ?_ ?_ ops
  · rfl
  · intro s x
    cases s with
    | none => rfl
    | some s => exact iir_push hF s x
  · intro s
    cases s <;> rfl

theorem iir_value (s : Impulse.Infinite (X F)) : (iir s).value = s.value.neg := by
  unfold Impulse.Infinite.value
  rw [show (iir s).outputWindow.items = s.outputWindow.items.map X.neg from rfl]
  cases s.outputWindow.items with
  | nil => exact (hF.neg_zero').symm
  | cons y ys => rfl

end Neg

/-- C79: the outputs of the impulse response filters change their sign. -/
theorem C79_impulse (hF : F.Odd) (as bs : List (X F)) (c : X F) (ops : List (Op (X F))) :
    (Impulse.Finite.run as (negOps ops)).map (·.value) = (Impulse.Finite.run as ops).map (·.value.neg)
    ∧ (Impulse.Infinite.run as bs c (negOps ops)).map (·.value) = (Impulse.Infinite.run as bs c ops).map (·.value.neg) := by
  constructor
  · rw [Neg.fir_run hF, Option.map_map]; rfl
  · rw [Neg.iir_run hF, Option.map_map]
    congr 1
    funext s
    exact Neg.iir_value hF s

/-- Finite `double` data: the negated data have the same variance. -/
example : (Cumulative.Variance.run (finOps [.push (-1), .push 3, .push (-7 / 2)]) : Cumulative.Variance 64 (X binary64)).variance
    = (Cumulative.Variance.run (finOps [.push 1, .push (-3), .push (7 / 2)]) : Cumulative.Variance 64 (X binary64)).variance := by
  rw [← (C79_cumulative (w := 64) binary64_odd (finOps [.push 1, .push (-3), .push (7 / 2)])).2.2.2.1]
  congr 2
  simp [negOps, finOps, Op.map, X.neg]
  norm_num

/-! ### C80: covariance, correlation and regression -/

namespace Neg
open Cumulative

/-- The state for negated x-coordinates. -/
def coX (s : Comoment w (X F)) : Comoment w (X F) := { s with xCenter := mean s.xCenter, center := s.center.neg }
/-- The state for negated y-coordinates. -/
def coY (s : Comoment w (X F)) : Comoment w (X F) := { s with yCenter := mean s.yCenter, center := s.center.neg }
@[inherit_doc coX] def corX (s : Correlation w (X F)) : Correlation w (X F) := { s with co := coX s.co, x := variance s.x }
@[inherit_doc coY] def corY (s : Correlation w (X F)) : Correlation w (X F) := { s with co := coY s.co, y := variance s.y }
@[inherit_doc coX] def regX (s : Regression w (X F)) : Regression w (X F) := { s with co := coX s.co, x := variance s.x }
@[inherit_doc coY] def regY (s : Regression w (X F)) : Regression w (X F) := { s with co := coY s.co, y := variance s.y }

variable (hF : F.Odd)
include hF

theorem coX_init : (Comoment.init : Comoment w (X F)) = coX Comoment.init := by
  show (⟨Mean.init, Mean.init, ofNat 0⟩ : Comoment w (X F)) = ⟨mean Mean.init, Mean.init, (ofNat 0 : X F).neg⟩
  rw [← mean_init hF, hF.neg_zero']

theorem coY_init : (Comoment.init : Comoment w (X F)) = coY Comoment.init := by
  show (⟨Mean.init, Mean.init, ofNat 0⟩ : Comoment w (X F)) = ⟨Mean.init, mean Mean.init, (ofNat 0 : X F).neg⟩
  rw [← mean_init hF, hF.neg_zero']

theorem coX_push (s : Comoment w (X F)) (q : X F × X F) : (coX s).push (q.1.neg, q.2) = coX (s.push q) := by
  show (⟨(mean s.xCenter).push q.1.neg, _, s.center.neg + (q.1.neg - ((mean s.xCenter).push q.1.neg).mean) * (q.2 - s.yCenter.mean)⟩ :
    Comoment w (X F)) = ⟨_, _, (s.center + (q.1 - (s.xCenter.push q.1).mean) * (q.2 - s.yCenter.mean)).neg⟩
  rw [mean_push hF, show (mean (s.xCenter.push q.1)).mean = (s.xCenter.push q.1).mean.neg from rfl, hF.sub, hF.mul_left, hF.add]
  rfl

theorem coY_push (s : Comoment w (X F)) (q : X F × X F) : (coY s).push (q.1, q.2.neg) = coY (s.push q) := by
  show (⟨_, (mean s.yCenter).push q.2.neg, s.center.neg + (q.1 - (s.xCenter.push q.1).mean) * (q.2.neg - s.yCenter.mean.neg)⟩ :
    Comoment w (X F)) = ⟨_, _, (s.center + (q.1 - (s.xCenter.push q.1).mean) * (q.2 - s.yCenter.mean)).neg⟩
  rw [mean_push hF, hF.sub, hF.mul_right, hF.add]
  rfl

theorem coX_run (ops : List (Op (X F × X F))) : (Comoment.run (negXOps ops) : Comoment w (X F)) = coX (Comoment.run ops) := by
  refine runOps_hom coX (fun q => (q.1.neg, q.2)) ?_ ?_ ?_ ops
  · exact coX_init hF
  · exact coX_push hF
  · exact fun _ => coX_init hF

theorem coY_run (ops : List (Op (X F × X F))) : (Comoment.run (negYOps ops) : Comoment w (X F)) = coY (Comoment.run ops) := by
  refine runOps_hom coY (fun q => (q.1, q.2.neg)) ?_ ?_ ?_ ops
  · exact coY_init hF
  · exact coY_push hF
  · exact fun _ => coY_init hF

theorem corX_run (ops : List (Op (X F × X F))) : (Correlation.run (negXOps ops) : Correlation w (X F)) = corX (Correlation.run ops) := by
  have h0 : (⟨Comoment.init, Variance.init, Variance.init⟩ : Correlation w (X F)) = ⟨coX Comoment.init, variance Variance.init, Variance.init⟩ := by
    rw [← coX_init hF, ← variance_init hF]
  refine runOps_hom corX (fun q => (q.1.neg, q.2)) ?_ ?_ ?_ ops
  · exact h0
  swap
  · exact fun _ => h0
  intro s q
  show (⟨(coX s.co).push (q.1.neg, q.2), (variance s.x).push q.1.neg, _⟩ : Correlation w (X F)) = ⟨coX (s.co.push q), variance (s.x.push q.1), _⟩
  rw [coX_push hF, variance_push hF]
  rfl

theorem corY_run (ops : List (Op (X F × X F))) : (Correlation.run (negYOps ops) : Correlation w (X F)) = corY (Correlation.run ops) := by
  have h0 : (⟨Comoment.init, Variance.init, Variance.init⟩ : Correlation w (X F)) = ⟨coY Comoment.init, Variance.init, variance Variance.init⟩ := by
    rw [← coY_init hF, ← variance_init hF]
  refine runOps_hom corY (fun q => (q.1, q.2.neg)) ?_ ?_ ?_ ops
  · exact h0
  swap
  · exact fun _ => h0
  intro s q
  show (⟨(coY s.co).push (q.1, q.2.neg), _, (variance s.y).push q.2.neg⟩ : Correlation w (X F)) = ⟨coY (s.co.push q), _, variance (s.y.push q.2)⟩
  rw [coY_push hF, variance_push hF]
  rfl

theorem regX_run (ops : List (Op (X F × X F))) : (Regression.run (negXOps ops) : Regression w (X F)) = regX (Regression.run ops) := by
  have h0 : (⟨Comoment.init, Variance.init, Variance.init⟩ : Regression w (X F)) = ⟨coX Comoment.init, variance Variance.init, Variance.init⟩ := by
    rw [← coX_init hF, ← variance_init hF]
  refine runOps_hom regX (fun q => (q.1.neg, q.2)) ?_ ?_ ?_ ops
  · exact h0
  swap
  · exact fun _ => h0
  intro s q
  show (⟨(coX s.co).push (q.1.neg, q.2), (variance s.x).push q.1.neg, _⟩ : Regression w (X F)) = ⟨coX (s.co.push q), variance (s.x.push q.1), _⟩
  rw [coX_push hF, variance_push hF]
  rfl

theorem regY_run (ops : List (Op (X F × X F))) : (Regression.run (negYOps ops) : Regression w (X F)) = regY (Regression.run ops) := by
  have h0 : (⟨Comoment.init, Variance.init, Variance.init⟩ : Regression w (X F)) = ⟨coY Comoment.init, Variance.init, variance Variance.init⟩ := by
    rw [← coY_init hF, ← variance_init hF]
  refine runOps_hom regY (fun q => (q.1, q.2.neg)) ?_ ?_ ?_ ops
  · exact h0
  swap
  · exact fun _ => h0
  intro s q
  show (⟨(coY s.co).push (q.1, q.2.neg), _, (variance s.y).push q.2.neg⟩ : Regression w (X F)) = ⟨coY (s.co.push q), _, variance (s.y.push q.2)⟩
  rw [coY_push hF, variance_push hF]
  rfl

theorem co_variance (s t : Comoment w (X F)) (h1 : t.center = s.center.neg) (h2 : t.size = s.size) :
    t.variance = s.variance.neg ∧ t.unbiasedVariance = s.unbiasedVariance.neg := by
  unfold Comoment.variance Comoment.unbiasedVariance
  rw [h1, h2, hF.div_left, hF.div_left]
  exact ⟨hF.cond _ _, hF.cond _ _⟩

end Neg

open Cumulative in
/-- C80: the covariance changes its sign when one coordinate of the pairs is negated. -/
theorem C80_covariance (hF : F.Odd) (ops : List (Op (X F × X F))) :
    (Comoment.run (negXOps ops) : Comoment w (X F)).variance = ((Comoment.run ops : Comoment w (X F)).variance).neg
    ∧ (Comoment.run (negXOps ops) : Comoment w (X F)).unbiasedVariance = ((Comoment.run ops : Comoment w (X F)).unbiasedVariance).neg
    ∧ (Comoment.run (negYOps ops) : Comoment w (X F)).variance = ((Comoment.run ops : Comoment w (X F)).variance).neg
    ∧ (Comoment.run (negYOps ops) : Comoment w (X F)).unbiasedVariance = ((Comoment.run ops : Comoment w (X F)).unbiasedVariance).neg := by
  rw [Neg.coX_run hF, Neg.coY_run hF]
  have h1 := Neg.co_variance hF (Comoment.run ops : Comoment w (X F)) (Neg.coX (Comoment.run ops)) rfl rfl
  have h2 := Neg.co_variance hF (Comoment.run ops : Comoment w (X F)) (Neg.coY (Comoment.run ops)) rfl rfl
  exact ⟨h1.1, h1.2, h2.1, h2.2⟩

open Cumulative in
/-- C80: so does the slope of the regression; the predicted values change accordingly. -/
theorem C80_regression (hF : F.Odd) (ops : List (Op (X F × X F))) (x : X F) :
    (Regression.run (negXOps ops) : Regression w (X F)).slope = ((Regression.run ops : Regression w (X F)).slope).neg
    ∧ (Regression.run (negYOps ops) : Regression w (X F)).slope = ((Regression.run ops : Regression w (X F)).slope).neg
    ∧ (Regression.run (negXOps ops) : Regression w (X F)).at' x.neg = (Regression.run ops : Regression w (X F)).at' x
    ∧ (Regression.run (negYOps ops) : Regression w (X F)).at' x = ((Regression.run ops : Regression w (X F)).at' x).neg := by
  rw [Neg.regX_run hF, Neg.regY_run hF]
  generalize (Regression.run ops : Regression w (X F)) = s
  have e1 : (Neg.regX s).slope = s.slope.neg := by
    show (if beq s.x.variance (ofNat 0) = true then ofNat 0 else (Neg.coX s.co).variance / s.x.variance) = _
    rw [(Neg.co_variance hF s.co (Neg.coX s.co) rfl rfl).1, hF.div_left]
    show _ = (if beq s.x.variance (ofNat 0) = true then ofNat 0 else s.co.variance / s.x.variance : X F).neg
    split
    · exact hF.neg_zero'.symm
    · rfl
  have e2 : (Neg.regY s).slope = s.slope.neg := by
    show (if beq s.x.variance (ofNat 0) = true then ofNat 0 else (Neg.coY s.co).variance / s.x.variance) = _
    rw [(Neg.co_variance hF s.co (Neg.coY s.co) rfl rfl).1, hF.div_left]
    show _ = (if beq s.x.variance (ofNat 0) = true then ofNat 0 else s.co.variance / s.x.variance : X F).neg
    split
    · exact hF.neg_zero'.symm
    · rfl
  refine ⟨e1, e2, ?_, ?_⟩
  · show s.y.super.mean - (Neg.regX s).slope * (s.x.super.mean.neg - x.neg) = _
    rw [e1, hF.sub, hF.mul]
    rfl
  · show s.y.super.mean.neg - (Neg.regY s).slope * (s.x.super.mean - x) = _
    rw [e2, hF.mul_left, hF.sub]
    rfl

open Cumulative in
/-- C80: so does the correlation, except that a product of the variances below the cut-off gives 1 for both. -/
theorem C80_correlation (hF : F.Odd) (ops : List (Op (X F × X F))) :
    let s : Correlation w (X F) := Correlation.run ops
    if lt (s.x.variance * s.y.variance) eps then
      (Correlation.run (negXOps ops) : Correlation w (X F)).value = ofNat 1 ∧ (Correlation.run (negYOps ops) : Correlation w (X F)).value = ofNat 1
    else (Correlation.run (negXOps ops) : Correlation w (X F)).value = s.value.neg
      ∧ (Correlation.run (negYOps ops) : Correlation w (X F)).value = s.value.neg := by
  intro s
  rw [Neg.corX_run hF, Neg.corY_run hF]
  show if lt (s.x.variance * s.y.variance) eps then _ ∧ _ else _ ∧ _
  have e1 : (Neg.corX s).value = if lt (s.x.variance * s.y.variance) eps then ofNat 1 else (Neg.coX s.co).variance / Scalar.sqrt (s.x.variance * s.y.variance) := rfl
  have e2 : (Neg.corY s).value = if lt (s.x.variance * s.y.variance) eps then ofNat 1 else (Neg.coY s.co).variance / Scalar.sqrt (s.x.variance * s.y.variance) := rfl
  have e3 : s.value = if lt (s.x.variance * s.y.variance) eps then ofNat 1 else s.co.variance / Scalar.sqrt (s.x.variance * s.y.variance) := rfl
  show if lt (s.x.variance * s.y.variance) eps then (Neg.corX s).value = _ ∧ (Neg.corY s).value = _ else (Neg.corX s).value = _ ∧ (Neg.corY s).value = _
  rw [e1, e2, e3, (Neg.co_variance hF s.co (Neg.coX s.co) rfl rfl).1, (Neg.co_variance hF s.co (Neg.coY s.co) rfl rfl).1, hF.div_left]
  by_cases hc : lt (s.x.variance * s.y.variance) eps = true
  · simp [hc]
  · simp [hc]

namespace Neg
open Window
variable {N : Nat}

/-- The state for negated x-coordinates. -/
def wcoX (s : Window.Comoment N (X F)) : Window.Comoment N (X F) :=
  { window := ⟨s.window.items.map fun q => (q.1.neg, q.2)⟩, sumX := s.sumX.neg, sumY := s.sumY, sumXY := s.sumXY.neg }
/-- The state for negated y-coordinates. -/
def wcoY (s : Window.Comoment N (X F)) : Window.Comoment N (X F) :=
  { window := ⟨s.window.items.map fun q => (q.1, q.2.neg)⟩, sumX := s.sumX, sumY := s.sumY.neg, sumXY := s.sumXY.neg }

variable (hF : F.Odd)
include hF

theorem wcoX_push (s : Window.Comoment N (X F)) (q : X F × X F) : (wcoX s).push (q.1.neg, q.2) = (s.push q).map wcoX := by
  unfold Window.Comoment.push
  have h1 : (wcoX s).window.full = s.window.full := ring_map_full _ _
  have h2 : (wcoX s).window.front = s.window.front.map (fun q => (q.1.neg, q.2)) := ring_map_front _ _
  have h4 : (wcoX s).window.pushBack (q.1.neg, q.2) = ⟨(s.window.pushBack q).items.map fun q => (q.1.neg, q.2)⟩ :=
    ring_map_push (fun q : X F × X F => (q.1.neg, q.2)) _ q
  dsimp only
  rw [h1, h2, h4]
  by_cases h : s.window.full = true
  · rw [if_pos h, if_pos h]
    cases s.window.front with
    | none => rfl
    | some front =>
      show some (⟨_, s.sumX.neg + (q.1.neg - front.1.neg), _, s.sumXY.neg + (q.1.neg * q.2 - front.1.neg * front.2)⟩ : Window.Comoment N (X F))
        = some (wcoX ⟨_, _, _, _⟩)
      rw [hF.sub, hF.add, hF.mul_left, hF.mul_left, hF.sub, hF.add]
      rfl
  · rw [if_neg h, if_neg h]
    show some (⟨_, s.sumX.neg + q.1.neg, _, s.sumXY.neg + q.1.neg * q.2⟩ : Window.Comoment N (X F)) = some (wcoX ⟨_, _, _, _⟩)
    rw [hF.add, hF.mul_left, hF.add]
    rfl

theorem wcoY_push (s : Window.Comoment N (X F)) (q : X F × X F) : (wcoY s).push (q.1, q.2.neg) = (s.push q).map wcoY := by
  unfold Window.Comoment.push
  have h1 : (wcoY s).window.full = s.window.full := ring_map_full _ _
  have h2 : (wcoY s).window.front = s.window.front.map (fun q => (q.1, q.2.neg)) := ring_map_front _ _
  have h4 : (wcoY s).window.pushBack (q.1, q.2.neg) = ⟨(s.window.pushBack q).items.map fun q => (q.1, q.2.neg)⟩ :=
    ring_map_push (fun q : X F × X F => (q.1, q.2.neg)) _ q
  dsimp only
  rw [h1, h2, h4]
  by_cases h : s.window.full = true
  · rw [if_pos h, if_pos h]
    cases s.window.front with
    | none => rfl
    | some front =>
      show some (⟨_, _, s.sumY.neg + (q.2.neg - front.2.neg), s.sumXY.neg + (q.1 * q.2.neg - front.1 * front.2.neg)⟩ : Window.Comoment N (X F))
        = some (wcoY ⟨_, _, _, _⟩)
      rw [hF.sub, hF.add, hF.mul_right, hF.mul_right, hF.sub, hF.add]
      rfl
  · rw [if_neg h, if_neg h]
    show some (⟨_, _, s.sumY.neg + q.2.neg, s.sumXY.neg + q.1 * q.2.neg⟩ : Window.Comoment N (X F)) = some (wcoY ⟨_, _, _, _⟩)
    rw [hF.add, hF.mul_right, hF.add]
    rfl

theorem wcoX_zero : (Window.Comoment.init : Window.Comoment N (X F)) = wcoX Window.Comoment.init := by
  show _ = (⟨⟨[]⟩, (ofNat 0 : X F).neg, ofNat 0, (ofNat 0 : X F).neg⟩ : Window.Comoment N (X F))
  rw [hF.neg_zero']; rfl

theorem wcoY_zero : (Window.Comoment.init : Window.Comoment N (X F)) = wcoY Window.Comoment.init := by
  show _ = (⟨⟨[]⟩, ofNat 0, (ofNat 0 : X F).neg, (ofNat 0 : X F).neg⟩ : Window.Comoment N (X F))
  rw [hF.neg_zero']; rfl

theorem wcoX_run (ops : List (Op (X F × X F))) :
    (Window.Comoment.run (negXOps ops) : Option (Window.Comoment N (X F))) = (Window.Comoment.run ops).map wcoX := by
  refine runOps_hom (Option.map wcoX) (fun q => (q.1.neg, q.2)) ?_ ?_ ?_ ops
  · exact congrArg some (wcoX_zero hF)
  · intro s q
    cases s with
    | none => rfl
    | some s => exact wcoX_push hF s q
  · intro s
    cases s with
    | none => rfl
    | some s => exact congrArg some (wcoX_zero hF)

theorem wcoY_run (ops : List (Op (X F × X F))) :
    (Window.Comoment.run (negYOps ops) : Option (Window.Comoment N (X F))) = (Window.Comoment.run ops).map wcoY := by
  refine runOps_hom (Option.map wcoY) (fun q => (q.1, q.2.neg)) ?_ ?_ ?_ ops
  · exact congrArg some (wcoY_zero hF)
  · intro s q
    cases s with
    | none => rfl
    | some s => exact wcoY_push hF s q
  · intro s
    cases s with
    | none => rfl
    | some s => exact congrArg some (wcoY_zero hF)

theorem wco_variance (s t : Window.Comoment N (X F)) (h1 : t.sumXY = s.sumXY.neg) (h2 : t.sumX * t.sumY = (s.sumX * s.sumY).neg)
    (h3 : t.size = s.size) : t.variance = s.variance.neg ∧ t.unbiasedVariance = s.unbiasedVariance.neg := by
  have h4 : t.cosum = s.cosum.neg := by
    unfold Window.Comoment.cosum
    rw [h1, h2, h3, hF.div_left, hF.sub]
  unfold Window.Comoment.variance Window.Comoment.unbiasedVariance
  rw [h3, h4, hF.div_left, hF.div_left]
  exact ⟨hF.cond _ _, hF.cond _ _⟩

end Neg

/-- C80: the window covariance changes its sign when one coordinate of the pairs is negated. -/
theorem C80_window {N : Nat} (hF : F.Odd) (ops : List (Op (X F × X F))) :
    (Window.Comoment.run (negXOps ops) : Option (Window.Comoment N (X F))).map (fun s => (s.variance, s.unbiasedVariance))
      = (Window.Comoment.run ops : Option (Window.Comoment N (X F))).map (fun s => (s.variance.neg, s.unbiasedVariance.neg))
    ∧ (Window.Comoment.run (negYOps ops) : Option (Window.Comoment N (X F))).map (fun s => (s.variance, s.unbiasedVariance))
      = (Window.Comoment.run ops : Option (Window.Comoment N (X F))).map (fun s => (s.variance.neg, s.unbiasedVariance.neg)) := by
  rw [Neg.wcoX_run hF, Neg.wcoY_run hF, Option.map_map, Option.map_map]
  constructor
  · congr 1
    funext s
    have := Neg.wco_variance hF s (Neg.wcoX s) rfl (hF.mul_left _ _) (Neg.ring_map_size _ _)
    exact Prod.ext this.1 this.2
  · congr 1
    funext s
    have := Neg.wco_variance hF s (Neg.wcoY s) rfl (hF.mul_right _ _) (Neg.ring_map_size _ _)
    exact Prod.ext this.1 this.2

open Interim in
/-- C80: the interim covariance changes its sign when one coordinate of the pairs is negated. -/
theorem C80_interim {W : Nat} (hF : F.Odd) (ops : List (Op (X F × X F))) :
    IComoment.variance (Interim.run (negXOps ops) : IComoment w W (X F)) = (IComoment.variance (Interim.run ops : IComoment w W (X F))).neg
    ∧ IComoment.variance (Interim.run (negYOps ops) : IComoment w W (X F)) = (IComoment.variance (Interim.run ops : IComoment w W (X F))).neg := by
  have hx : Neg.Hom (σ := Cumulative.Comoment w (X F)) Neg.coX (fun q => (q.1.neg, q.2)) :=
    ⟨Neg.coX_init hF, Neg.coX_push hF, fun _ => Neg.coX_init hF, fun _ => rfl⟩
  have hy : Neg.Hom (σ := Cumulative.Comoment w (X F)) Neg.coY (fun q => (q.1, q.2.neg)) :=
    ⟨Neg.coY_init hF, Neg.coY_push hF, fun _ => Neg.coY_init hF, fun _ => rfl⟩
  constructor
  · rw [negXOps, Neg.interim_run hx]
    exact Neg.interim_neg hF hx (fun s => (Neg.co_variance hF s (Neg.coX s) rfl rfl).1) _
  · rw [negYOps, Neg.interim_run hy]
    exact Neg.interim_neg hF hy (fun s => (Neg.co_variance hF s (Neg.coY s) rfl rfl).1) _

/-- Finite `double` data. -/
example : (Cumulative.Comoment.run (finOps2 [.push (-1, 2), .push (3, 1 / 2)]) : Cumulative.Comoment 64 (X binary64)).variance
    = ((Cumulative.Comoment.run (finOps2 [.push (1, 2), .push (-3, 1 / 2)]) : Cumulative.Comoment 64 (X binary64)).variance).neg := by
  rw [← (C80_covariance (w := 64) binary64_odd (finOps2 [.push (1, 2), .push (-3, 1 / 2)])).1]
  congr 2
  simp [negXOps, finOps2, Op.map, X.neg]

/-! ### C81: skewness -/

/-- C81: the cumulative skewness changes its sign with the data. -/
def C81_Statement (F : Fmt) (w : Nat) : Prop :=
  ∀ ops : List (Op (X F)), (Cumulative.Skewness.run (negOps ops) : Cumulative.Skewness w (X F)).skewness
    = ((Cumulative.Skewness.run ops : Cumulative.Skewness w (X F)).skewness).neg

/-- C81, the part that holds, for the sum of the third powers `skewness()` is computed from: if it reaches the machine epsilon
then the skewness of the negated data is 0; if it is at most minus epsilon the skewness of the data is 0 and that of the
negated data is the formula; if it lies strictly between the law holds (both are 0); if it is NaN the law holds (both are NaN). -/
theorem C81_skewness_partial (hF : F.Odd) (ops : List (Op (X F))) (r : ℝ) (h : (Cumulative.Skewness.run ops : Cumulative.Skewness w (X F)).sumSkewness = X.fin r) :
    (F.eps ≤ r → 0 < F.eps → (Cumulative.Skewness.run (negOps ops) : Cumulative.Skewness w (X F)).skewness = X.fin 0)
    ∧ (|r| < F.eps → (Cumulative.Skewness.run (negOps ops) : Cumulative.Skewness w (X F)).skewness
        = ((Cumulative.Skewness.run ops : Cumulative.Skewness w (X F)).skewness).neg)
    ∧ (r ≤ -F.eps → 0 < F.eps → (Cumulative.Skewness.run ops : Cumulative.Skewness w (X F)).skewness = X.fin 0) := by
  rw [Neg.skewness_run hF]
  generalize (Cumulative.Skewness.run ops : Cumulative.Skewness w (X F)) = s at h ⊢
  unfold Cumulative.Skewness.skewness
  have e : (Neg.skewness s).sumSkewness = X.fin (-r) := by
    show s.sumSkewness.neg = _
    rw [h]; rfl
  rw [e, h, X.eps_eq, X.lt_fin, X.lt_fin]
  refine ⟨?_, ?_, ?_⟩
  · intro h1 h2
    rw [if_pos (by rw [decide_eq_true_eq]; linarith), hF.zero]
  · intro h1
    have := abs_lt.1 h1
    rw [if_pos (by rw [decide_eq_true_eq]; linarith), if_pos (by rw [decide_eq_true_eq]; linarith), hF.neg_zero']
  · intro h1 h2
    rw [if_pos (by rw [decide_eq_true_eq]; linarith), hF.zero]

/-- C81 when the sum is NaN: the law holds. -/
theorem C81_nan_partial (hF : F.Odd) (ops : List (Op (X F))) (h : (Cumulative.Skewness.run ops : Cumulative.Skewness w (X F)).sumSkewness = X.nan) :
    (Cumulative.Skewness.run (negOps ops) : Cumulative.Skewness w (X F)).skewness
        = ((Cumulative.Skewness.run ops : Cumulative.Skewness w (X F)).skewness).neg := by
  rw [Neg.skewness_run hF]
  generalize (Cumulative.Skewness.run ops : Cumulative.Skewness w (X F)) = s at h ⊢
  unfold Cumulative.Skewness.skewness
  have e : (Neg.skewness s).sumSkewness = X.nan := by
    show s.sumSkewness.neg = _
    rw [h]; rfl
  have m : ∀ x : X F, x * X.nan = X.nan := fun x => by cases x <;> rfl
  have d : ∀ x : X F, X.nan / x = X.nan := fun x => by cases x <;> rfl
  have l : lt (X.nan : X F) eps = false := rfl
  rw [e, h, l, if_neg (by simp), if_neg (by simp), m, m, d, d]; rfl

/-- Where C81 holds if the sum is finite: exactly if the skewness of the data and that of the negated data are both 0, because
one of the two is always cut off. -/
theorem C81_iff_partial (hF : F.Odd) (heps : 0 < F.eps) (ops : List (Op (X F))) (r : ℝ)
    (h : (Cumulative.Skewness.run ops : Cumulative.Skewness w (X F)).sumSkewness = X.fin r) :
    (Cumulative.Skewness.run (negOps ops) : Cumulative.Skewness w (X F)).skewness
        = ((Cumulative.Skewness.run ops : Cumulative.Skewness w (X F)).skewness).neg
      ↔ (Cumulative.Skewness.run ops : Cumulative.Skewness w (X F)).skewness = X.fin 0
        ∧ (Cumulative.Skewness.run (negOps ops) : Cumulative.Skewness w (X F)).skewness = X.fin 0 := by
  obtain ⟨h1, h2, h3⟩ := C81_skewness_partial (w := w) hF ops r h
  have n0 : ∀ x : X F, x.neg = X.fin 0 ↔ x = X.fin 0 := by
    intro x; cases x <;> simp [X.neg]
  rcases lt_or_ge r F.eps with hr | hr
  · rcases lt_or_ge (-F.eps) r with hr' | hr'
    · have e : (Cumulative.Skewness.run ops : Cumulative.Skewness w (X F)).skewness = X.fin 0 := by
        unfold Cumulative.Skewness.skewness
        rw [h, X.eps_eq, X.lt_fin, if_pos (by rw [decide_eq_true_eq]; linarith), hF.zero]
      have e2 := h2 (abs_lt.2 ⟨hr', hr⟩)
      rw [e] at e2
      refine ⟨fun _ => ⟨e, e2.trans ?_⟩, fun _ => by rw [e2, e]⟩
      simp [X.neg]
    · have e := h3 hr' heps
      rw [e]
      constructor
      · intro h; rw [h]; simp [X.neg]
      · rintro ⟨-, h⟩; rw [h]; simp [X.neg]
  · have e := h1 hr heps
    rw [e]
    constructor
    · intro h; exact ⟨(n0 _).1 h.symm, rfl⟩
    · rintro ⟨h, -⟩; rw [h]; simp [X.neg]

/-- A value between two numbers of the type is rounded to a number between them. -/
theorem round64_between {r : ℝ} (a b e : Int) (ha : |a| ≤ 2 ^ 53) (hb : |b| ≤ 2 ^ 53) (he : -1074 ≤ e) (he' : e ≤ 970)
    (h1 : (a : ℝ) * 2 ^ e ≤ r) (h2 : r ≤ b * 2 ^ e) :
    ∃ v, (X.round r : X binary64) = X.fin v ∧ (a : ℝ) * 2 ^ e ≤ v ∧ v ≤ b * 2 ^ e := by
  obtain ⟨a1, a2⟩ := double a e ha he he'
  obtain ⟨b1, b2⟩ := double b e hb he he'
  have l := binary64_binary.mono h1
  have u := binary64_binary.mono h2
  rw [binary64_binary.exact _ a1] at l
  rw [binary64_binary.exact _ b1] at u
  refine ⟨binary64.rnd r, ?_, l, u⟩
  unfold X.round
  rw [if_pos]
  rw [binary64_fits, abs_lt] at *
  exact ⟨lt_of_lt_of_le a2.1 l, lt_of_le_of_lt u b2.2⟩

/-- The state of the cumulative skewness after 0, 0, 3. -/
theorem skewness_003 : (Cumulative.Skewness.run (finOps [.push 0, .push 0, .push 3]) : Cumulative.Skewness 64 (X binary64))
    = ⟨⟨⟨X.fin 1, 3⟩, X.fin 6⟩, X.fin 6⟩ := by
  have i : ∀ {r : ℝ} (n : Int), r = n → |n| ≤ 2 ^ 53 → (X.round r : X binary64) = X.fin r := fun n h h' => round64_int n h h'
  have r0 : (X.round 0 : X binary64) = X.fin 0 := i 0 (by norm_num) (by norm_num)
  have r1 : (X.round 1 : X binary64) = X.fin 1 := i 1 (by norm_num) (by norm_num)
  have r2 : (X.round 2 : X binary64) = X.fin 2 := i 2 (by norm_num) (by norm_num)
  have r3 : (X.round 3 : X binary64) = X.fin 3 := i 3 (by norm_num) (by norm_num)
  have r6 : (X.round 6 : X binary64) = X.fin 6 := i 6 (by norm_num) (by norm_num)
  have rb : ∃ b, (ofSize (0 + 1 - 2 : SizeT 64) : X binary64) = X.fin b := by
    have hn : (0 + 1 - 2 : SizeT 64).toNat = 18446744073709551615 := by decide
    obtain ⟨v, hv, -, -⟩ := round64_between (r := ((18446744073709551615 : Nat) : ℝ)) 0 (2 ^ 52) 12 (by norm_num) (by norm_num) (by norm_num)
      (by norm_num) (by norm_num) (by norm_num)
    exact ⟨v, by rw [ofSize, hn, X.ofNat_eq, hv]⟩
  obtain ⟨b, rb⟩ := rb
  have h1 : (Cumulative.Skewness.init : Cumulative.Skewness 64 (X binary64)).push (X.fin 0) = ⟨⟨⟨X.fin 0, 1⟩, X.fin 0⟩, X.fin 0⟩ := by
    show (⟨⟨⟨ofNat 0 + (X.fin 0 - ofNat 0) / ofNat 1, 1⟩,
        ofNat 0 + (X.fin 0 - ofNat 0) * (X.fin 0 - (ofNat 0 + (X.fin 0 - ofNat 0) / ofNat 1))⟩,
        ofNat 0 + ((X.fin 0 - ofNat 0) * ((X.fin 0 - ofNat 0) / ofNat 1) * ofNat 0 * ofSize (0 + 1 - 2 : SizeT 64) - ofNat 3 * ofNat 0)
          * ((X.fin 0 - ofNat 0) / ofNat 1)⟩ : Cumulative.Skewness 64 (X binary64)) = _
    rw [rb]
    simp [X.ofNat_eq, X.sub_fin, X.mul_fin, X.add_fin, X.div_fin, r0, r1, r3]
  have h2 : (⟨⟨⟨X.fin 0, 1⟩, X.fin 0⟩, X.fin 0⟩ : Cumulative.Skewness 64 (X binary64)).push (X.fin 0) = ⟨⟨⟨X.fin 0, 2⟩, X.fin 0⟩, X.fin 0⟩ := by
    show (⟨⟨⟨X.fin 0 + (X.fin 0 - X.fin 0) / ofNat 2, 2⟩,
        X.fin 0 + (X.fin 0 - X.fin 0) * (X.fin 0 - (X.fin 0 + (X.fin 0 - X.fin 0) / ofNat 2))⟩,
        X.fin 0 + ((X.fin 0 - X.fin 0) * ((X.fin 0 - X.fin 0) / ofNat 2) * ofNat 1 * ofNat 0 - ofNat 3 * X.fin 0)
          * ((X.fin 0 - X.fin 0) / ofNat 2)⟩ : Cumulative.Skewness 64 (X binary64)) = _
    simp [X.ofNat_eq, X.sub_fin, X.mul_fin, X.add_fin, X.div_fin, r0, r1, r2, r3]
  have h3 : (⟨⟨⟨X.fin 0, 2⟩, X.fin 0⟩, X.fin 0⟩ : Cumulative.Skewness 64 (X binary64)).push (X.fin 3) = ⟨⟨⟨X.fin 1, 3⟩, X.fin 6⟩, X.fin 6⟩ := by
    show (⟨⟨⟨X.fin 0 + (X.fin 3 - X.fin 0) / ofNat 3, 3⟩,
        X.fin 0 + (X.fin 3 - X.fin 0) * (X.fin 3 - (X.fin 0 + (X.fin 3 - X.fin 0) / ofNat 3))⟩,
        X.fin 0 + ((X.fin 3 - X.fin 0) * ((X.fin 3 - X.fin 0) / ofNat 3) * ofNat 2 * ofNat 1 - ofNat 3 * X.fin 0)
          * ((X.fin 3 - X.fin 0) / ofNat 3)⟩ : Cumulative.Skewness 64 (X binary64)) = _
    norm_num [X.ofNat_eq, X.sub_fin, X.mul_fin, X.add_fin, X.div_fin, r0, r1, r2, r3, r6]
  show (((Cumulative.Skewness.init : Cumulative.Skewness 64 (X binary64)).push (X.fin 0)).push (X.fin 0)).push (X.fin 3) = _
  rw [h1, h2, h3]

/-- C81 is violated in binary64: the data 0, 0, 3 have a positive skewness, the data 0, 0, -3 have skewness 0. -/
theorem C81_violated : ¬ C81_Statement binary64 64 := by
  intro h
  have h1 := h (finOps [.push 0, .push 0, .push 3])
  have e := skewness_003
  have h2 := (C81_skewness_partial binary64_odd (finOps [.push 0, .push 0, .push 3]) 6 (by rw [e])).1
    (by show (2 : ℝ) ^ (1 - ((53 : Nat) : Int)) ≤ 6; norm_num) (by show (0 : ℝ) < (2 : ℝ) ^ (1 - ((53 : Nat) : Int)); positivity)
  rw [h2, e] at h1
  have h3 : (⟨⟨⟨X.fin 1, 3⟩, X.fin 6⟩, X.fin 6⟩ : Cumulative.Skewness 64 (X binary64)).skewness
      = Scalar.sqrt (ofNat 3) * X.fin 6 / (Scalar.sqrt (X.fin 6) * X.fin 6) := by
    unfold Cumulative.Skewness.skewness
    rw [if_neg]
    · rfl
    · rw [X.eps_eq, X.lt_fin, decide_eq_true_eq, not_lt]
      show (2 : ℝ) ^ (1 - ((53 : Nat) : Int)) ≤ 6; norm_num
  rw [h3, ofNat64 (by norm_num), X.sqrt_fin_of_nonneg (by norm_num), X.sqrt_fin_of_nonneg (by norm_num)] at h1
  have s3 : (1 : ℝ) ≤ Real.sqrt 3 ∧ Real.sqrt 3 ≤ 2 := by
    constructor
    · rw [Real.le_sqrt' (by norm_num)]; norm_num
    · rw [Real.sqrt_le_left (by norm_num)]; norm_num
  have s6 : (2 : ℝ) ≤ Real.sqrt 6 ∧ Real.sqrt 6 ≤ 3 := by
    constructor
    · rw [Real.le_sqrt' (by norm_num)]; norm_num
    · rw [Real.sqrt_le_left (by norm_num)]; norm_num
  obtain ⟨a, a1, a2, a3⟩ := round64_between (r := Real.sqrt ((3 : Nat) : ℝ)) 1 2 0 (by norm_num) (by norm_num) (by norm_num) (by norm_num)
    (by simp) (by simpa using s3.2)
  obtain ⟨b, b1, b2, b3⟩ := round64_between (r := Real.sqrt 6) 2 3 0 (by norm_num) (by norm_num) (by norm_num) (by norm_num)
    (by simpa using s6.1) (by simpa using s6.2)
  norm_num at a2 a3 b2 b3
  rw [a1, b1, X.mul_fin, X.mul_fin] at h1
  obtain ⟨c, c1, c2, c3⟩ := round64_between (r := a * 6) 6 12 0 (by norm_num) (by norm_num) (by norm_num) (by norm_num)
    (by norm_num; linarith) (by norm_num; linarith)
  obtain ⟨d, d1, d2, d3⟩ := round64_between (r := b * 6) 12 18 0 (by norm_num) (by norm_num) (by norm_num) (by norm_num)
    (by norm_num; linarith) (by norm_num; linarith)
  norm_num at c2 c3 d2 d3
  rw [c1, d1, X.div_fin_of_ne _ (by linarith)] at h1
  obtain ⟨v, v1, v2, v3⟩ := round64_between (r := c / d) 1 4 (-2) (by norm_num) (by norm_num) (by norm_num) (by norm_num)
    (by rw [le_div_iff₀ (by linarith)]; norm_num; linarith) (by rw [div_le_iff₀ (by linarith)]; norm_num; linarith)
  norm_num at v2 v3
  rw [v1] at h1
  have h4 : (0 : ℝ) = -v := by simpa [X.neg] using h1
  linarith

end Verif.Props
