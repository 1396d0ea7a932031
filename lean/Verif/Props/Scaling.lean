import Verif.Proofs.Scaling
import Verif.Props.Negation
/-
C142: multiplying the data by a power of two, with rounding.  `F.Scales` holds for `p` digits and exponents without bounds
(`unbounded_scales`) and for exact arithmetic (`exact_scales`).  The data are arbitrary: infinities and NaN are included.
-/
namespace Verif.Props
open Scalar

variable {w : Nat} {F : Fmt}

/-- Multiply every data point by `2^k`. -/
noncomputable def scOps (k : ℤ) (ops : List (Op (X F))) : List (Op (X F)) := ops.map (Op.map (X.sc k))

/-- Multiply every x-coordinate by `2^j` and every y-coordinate by `2^k`. -/
noncomputable def scOps2 (j k : ℤ) (ops : List (Op (X F × X F))) : List (Op (X F × X F)) :=
  ops.map (Op.map fun q => (q.1.sc j, q.2.sc k))

/-! ### Cumulative filters -/

namespace Sc
open Cumulative

/-- The state for the scaled data. -/
noncomputable def mean (k : ℤ) (s : Mean w (X F)) : Mean w (X F) := { s with mean := s.mean.sc k }
@[inherit_doc mean] noncomputable def variance (k : ℤ) (s : Variance w (X F)) : Variance w (X F) :=
  { super := mean k s.super, sumVariance := s.sumVariance.sc (k + k) }
@[inherit_doc mean] noncomputable def skewness (k : ℤ) (s : Skewness w (X F)) : Skewness w (X F) :=
  { super := variance k s.super, sumSkewness := s.sumSkewness.sc (k + k + k) }
@[inherit_doc mean] noncomputable def kurtosis (k : ℤ) (s : Kurtosis w (X F)) : Kurtosis w (X F) :=
  { super := skewness k s.super, sumKurtosis := s.sumKurtosis.sc (k + k + k + k) }
@[inherit_doc mean] noncomputable def trend (k : ℤ) (s : Trend w (X F)) : Trend w (X F) := { center := mean k s.center, grand := mean k s.grand }

variable (hF : F.Scales) (k : ℤ)
include hF

theorem mean_init : (Mean.init : Mean w (X F)) = mean k Mean.init := by
  show (⟨ofNat 0, 0⟩ : Mean w (X F)) = ⟨(ofNat 0 : X F).sc k, 0⟩
  rw [hF.sc_ofNat_zero]

theorem mean_clear (s : Mean w (X F)) : (mean k s).clear = mean k s.clear := mean_init hF k

theorem mean_push (s : Mean w (X F)) (x : X F) : (mean k s).push (x.sc k) = mean k (s.push x) := by
  show (⟨s.mean.sc k + (x.sc k - s.mean.sc k) / ofSize (s.count + 1), s.count + 1⟩ : Mean w (X F))
    = ⟨(s.mean + (x - s.mean) / ofSize (s.count + 1)).sc k, s.count + 1⟩
  rw [hF.sub, hF.div_left, hF.add]

theorem variance_init : (Variance.init : Variance w (X F)) = variance k Variance.init := by
  show (⟨Mean.init, ofNat 0⟩ : Variance w (X F)) = ⟨mean k Mean.init, (ofNat 0 : X F).sc (k + k)⟩
  rw [← mean_init hF, hF.sc_ofNat_zero]

theorem variance_clear (s : Variance w (X F)) : (variance k s).clear = variance k s.clear := variance_init hF k

theorem variance_push (s : Variance w (X F)) (x : X F) : (variance k s).push (x.sc k) = variance k (s.push x) := by
  show (⟨(mean k s.super).push (x.sc k),
      s.sumVariance.sc (k + k) + (x.sc k - s.super.mean.sc k) * (x.sc k - ((mean k s.super).push (x.sc k)).mean)⟩ : Variance w (X F))
    = ⟨mean k (s.super.push x), (s.sumVariance + (x - s.super.mean) * (x - (s.super.push x).mean)).sc (k + k)⟩
  rw [mean_push hF]
  show (⟨_, s.sumVariance.sc (k + k) + (x.sc k - s.super.mean.sc k) * (x.sc k - (s.super.push x).mean.sc k)⟩ : Variance w (X F)) = _
  rw [hF.sub, hF.sub, hF.mul, hF.add]

theorem skewness_init : (Skewness.init : Skewness w (X F)) = skewness k Skewness.init := by
  show (⟨Variance.init, ofNat 0⟩ : Skewness w (X F)) = ⟨variance k Variance.init, (ofNat 0 : X F).sc _⟩
  rw [← variance_init hF, hF.sc_ofNat_zero]

theorem skewness_clear (s : Skewness w (X F)) : (skewness k s).clear = skewness k s.clear := skewness_init hF k

theorem skewness_push (s : Skewness w (X F)) (x : X F) : (skewness k s).push (x.sc k) = skewness k (s.push x) := by
  unfold Skewness.push
  show (⟨(variance k s.super).push (x.sc k), s.sumSkewness.sc (k + k + k) +
      ((x.sc k - s.super.super.mean.sc k) * ((x.sc k - s.super.super.mean.sc k) / ofSize (s.size + 1)) * ofSize (s.size + 1 - 1)
        * ofSize (s.size + 1 - 2) - ofNat 3 * s.super.sumVariance.sc (k + k)) * ((x.sc k - s.super.super.mean.sc k) / ofSize (s.size + 1))⟩
      : Skewness w (X F)) = skewness k ⟨s.super.push x, _⟩
  rw [variance_push hF, hF.sub, hF.div_left, hF.mul, hF.mul_left _ _ (ofSize (s.size + 1 - 1)), hF.mul_left _ _ (ofSize (s.size + 1 - 2)),
    hF.mul_right _ (ofNat 3), hF.sub, hF.mul, hF.add]
  rfl

theorem kurtosis_init : (Kurtosis.init : Kurtosis w (X F)) = kurtosis k Kurtosis.init := by
  show (⟨Skewness.init, ofNat 0⟩ : Kurtosis w (X F)) = ⟨skewness k Skewness.init, (ofNat 0 : X F).sc _⟩
  rw [← skewness_init hF, hF.sc_ofNat_zero]

theorem kurtosis_clear (s : Kurtosis w (X F)) : (kurtosis k s).clear = kurtosis k s.clear := kurtosis_init hF k

theorem kurtosis_push (s : Kurtosis w (X F)) (x : X F) : (kurtosis k s).push (x.sc k) = kurtosis k (s.push x) := by
  unfold Kurtosis.push
  show (⟨(skewness k s.super).push (x.sc k), s.sumKurtosis.sc (k + k + k + k) +
      (((x.sc k - s.super.super.super.mean.sc k) * ((x.sc k - s.super.super.super.mean.sc k) / ofSize (s.size + 1)) * ofSize (s.size + 1 - 1)
        * ofSize ((s.size + 1) * (s.size + 1 - 3) + 3) + ofNat 6 * s.super.super.sumVariance.sc (k + k))
          * ((x.sc k - s.super.super.super.mean.sc k) / ofSize (s.size + 1)) - ofNat 4 * s.super.sumSkewness.sc (k + k + k))
        * ((x.sc k - s.super.super.super.mean.sc k) / ofSize (s.size + 1))⟩
      : Kurtosis w (X F)) = kurtosis k ⟨s.super.push x, _⟩
  rw [skewness_push hF, hF.sub, hF.div_left, hF.mul, hF.mul_left _ _ (ofSize (s.size + 1 - 1)),
    hF.mul_left _ _ (ofSize ((s.size + 1) * (s.size + 1 - 3) + 3)), hF.mul_right _ (ofNat 6), hF.mul_right _ (ofNat 4), hF.add, hF.mul, hF.sub,
    hF.mul, hF.add]
  rfl

theorem trend_init : (Trend.init : Trend w (X F)) = trend k Trend.init := by
  show (⟨Mean.init, Mean.init⟩ : Trend w (X F)) = ⟨mean k Mean.init, mean k Mean.init⟩
  rw [← mean_init hF]

theorem trend_clear (s : Trend w (X F)) : (trend k s).clear = trend k s.clear := trend_init hF k

theorem trend_push (s : Trend w (X F)) (x : X F) : (trend k s).push (x.sc k) = trend k (s.push x) := by
  show (⟨(mean k s.center).push (x.sc k), (mean k s.grand).push ((mean k s.center).push (x.sc k)).mean⟩ : Trend w (X F))
    = ⟨mean k (s.center.push x), mean k (s.grand.push (s.center.push x).mean)⟩
  rw [mean_push hF]
  show (⟨_, (mean k s.grand).push ((s.center.push x).mean.sc k)⟩ : Trend w (X F)) = _
  rw [mean_push hF]

theorem mean_run (ops : List (Op (X F))) : (Mean.run (scOps k ops) : Mean w (X F)) = mean k (Mean.run ops) :=
  runOps_hom (mean k) (X.sc k) (mean_init hF k) (mean_push hF k) (mean_clear hF k) ops
theorem variance_run (ops : List (Op (X F))) : (Variance.run (scOps k ops) : Variance w (X F)) = variance k (Variance.run ops) :=
  runOps_hom (variance k) (X.sc k) (variance_init hF k) (variance_push hF k) (variance_clear hF k) ops
theorem skewness_run (ops : List (Op (X F))) : (Skewness.run (scOps k ops) : Skewness w (X F)) = skewness k (Skewness.run ops) :=
  runOps_hom (skewness k) (X.sc k) (skewness_init hF k) (skewness_push hF k) (skewness_clear hF k) ops
theorem kurtosis_run (ops : List (Op (X F))) : (Kurtosis.run (scOps k ops) : Kurtosis w (X F)) = kurtosis k (Kurtosis.run ops) :=
  runOps_hom (kurtosis k) (X.sc k) (kurtosis_init hF k) (kurtosis_push hF k) (kurtosis_clear hF k) ops
theorem trend_run (ops : List (Op (X F))) : (Trend.run (scOps k ops) : Trend w (X F)) = trend k (Trend.run ops) :=
  runOps_hom (trend k) (X.sc k) (trend_init hF k) (trend_push hF k) (trend_clear hF k) ops

theorem skewness_formula (n a b : X F) :
    Scalar.sqrt n * a.sc (k + k + k) / (Scalar.sqrt (b.sc (k + k)) * b.sc (k + k)) = Scalar.sqrt n * a / (Scalar.sqrt b * b) := by
  rw [hF.sqrt, hF.mul, hF.mul_right, hF.div, show k + k + k - (k + (k + k)) = 0 by ring, Fmt.Scales.sc_zero]

theorem kurtosis_formula (n a b : X F) :
    n * a.sc (k + k + k + k) / (b.sc (k + k) * b.sc (k + k)) = n * a / (b * b) := by
  rw [hF.mul, hF.mul_right, hF.div, show k + k + k + k - (k + k + (k + k)) = 0 by ring, Fmt.Scales.sc_zero]

theorem skewness_get (s : Skewness w (X F)) (h : lt (s.sumSkewness.sc (k + k + k)) eps = lt s.sumSkewness eps) :
    (skewness k s).skewness = s.skewness := by
  show (if lt (s.sumSkewness.sc (k + k + k)) eps then ofNat 0 else Scalar.sqrt (ofSize s.size) * s.sumSkewness.sc (k + k + k)
    / (Scalar.sqrt (s.super.sumVariance.sc (k + k)) * s.super.sumVariance.sc (k + k))) = _
  rw [h, skewness_formula hF]; rfl

theorem kurtosis_get (s : Kurtosis w (X F)) (h : lt (s.sumKurtosis.sc (k + k + k + k)) eps = lt s.sumKurtosis eps) :
    (kurtosis k s).kurtosis = s.kurtosis := by
  show (if lt (s.sumKurtosis.sc (k + k + k + k)) eps then ofNat 0 else ofSize s.size * s.sumKurtosis.sc (k + k + k + k)
    / (s.super.super.sumVariance.sc (k + k) * s.super.super.sumVariance.sc (k + k))) = _
  rw [h, kurtosis_formula hF]; rfl

end Sc

open Cumulative in
/-- C142: mean, unbiased mean and trend are multiplied by `2^k`, variance and unbiased variance by `2^2k`, bit for bit. -/
theorem C142_cumulative_partial (hF : F.Scales) (k : ℤ) (ops : List (Op (X F))) :
    (Mean.run (scOps k ops) : Mean w (X F)).getMean = ((Mean.run ops : Mean w (X F)).getMean).sc k
    ∧ (Mean.run (scOps k ops) : Mean w (X F)).unbiasedMean = ((Mean.run ops : Mean w (X F)).unbiasedMean).sc k
    ∧ (Trend.run (scOps k ops) : Trend w (X F)).value = ((Trend.run ops : Trend w (X F)).value).sc k
    ∧ (Variance.run (scOps k ops) : Variance w (X F)).variance = ((Variance.run ops : Variance w (X F)).variance).sc (k + k)
    ∧ (Variance.run (scOps k ops) : Variance w (X F)).unbiasedVariance = ((Variance.run ops : Variance w (X F)).unbiasedVariance).sc (k + k) := by
  refine ⟨?_, ?_, ?_, ?_, ?_⟩
  · rw [Sc.mean_run hF]; rfl
  · rw [Sc.mean_run hF]
    show (Mean.run ops : Mean w (X F)).mean.sc k * _ / _ = _
    rw [hF.mul_left, hF.div_left]; rfl
  · rw [Sc.trend_run hF]
    show (Trend.run ops : Trend w (X F)).center.mean.sc k
      + ofNat 2 * ((Trend.run ops : Trend w (X F)).center.mean.sc k - (Trend.run ops : Trend w (X F)).grand.mean.sc k) = _
    rw [hF.sub, hF.mul_right, hF.add]; rfl
  · rw [Sc.variance_run hF]
    show (Variance.run ops : Variance w (X F)).sumVariance.sc (k + k) / _ = _
    rw [hF.div_left]; rfl
  · rw [Sc.variance_run hF]
    show (Variance.run ops : Variance w (X F)).sumVariance.sc (k + k) / _ = _
    rw [hF.div_left]; rfl

open Cumulative in
/-- C142: skewness and kurtosis do not change if the sum of the third (fourth) powers is on the same side of the cut-off before
and after scaling. -/
theorem C142_shape_partial (hF : F.Scales) (k : ℤ) (ops : List (Op (X F))) :
    (lt ((Skewness.run ops : Skewness w (X F)).sumSkewness.sc (k + k + k)) eps = lt (Skewness.run ops : Skewness w (X F)).sumSkewness eps →
      (Skewness.run (scOps k ops) : Skewness w (X F)).skewness = (Skewness.run ops : Skewness w (X F)).skewness
      ∧ (Skewness.run (scOps k ops) : Skewness w (X F)).unbiasedSkewness = (Skewness.run ops : Skewness w (X F)).unbiasedSkewness)
    ∧ (lt ((Kurtosis.run ops : Kurtosis w (X F)).sumKurtosis.sc (k + k + k + k)) eps = lt (Kurtosis.run ops : Kurtosis w (X F)).sumKurtosis eps →
      (Kurtosis.run (scOps k ops) : Kurtosis w (X F)).kurtosis = (Kurtosis.run ops : Kurtosis w (X F)).kurtosis
      ∧ (Kurtosis.run (scOps k ops) : Kurtosis w (X F)).unbiasedKurtosis = (Kurtosis.run ops : Kurtosis w (X F)).unbiasedKurtosis) := by
  constructor
  · intro h
    rw [Sc.skewness_run hF]
    generalize (Skewness.run ops : Skewness w (X F)) = s at h ⊢
    have e := Sc.skewness_get hF k s h
    refine ⟨e, ?_⟩
    unfold Skewness.unbiasedSkewness
    rw [e]
    show (if s.size < 2 then ofNat 0 else if lt (s.sumSkewness.sc (k + k + k)) eps then ofNat 0 else _) = _
    rw [h]; rfl
  · intro h
    rw [Sc.kurtosis_run hF]
    generalize (Kurtosis.run ops : Kurtosis w (X F)) = s at h ⊢
    have e := Sc.kurtosis_get hF k s h
    refine ⟨e, ?_⟩
    unfold Kurtosis.unbiasedKurtosis
    rw [e]
    show (if s.size < 4 then ofNat 0 else if lt (s.sumKurtosis.sc (k + k + k + k)) eps then ofNat 0 else _) = _
    rw [h]; rfl

/-! ### Window filters -/

namespace Sc
open Window
variable {N : Nat}

/-- The state for the scaled data. -/
noncomputable def ring (k : ℤ) (r : Ring N (X F)) : Ring N (X F) := ⟨r.items.map (X.sc k)⟩
@[inherit_doc ring] noncomputable def wmean (k : ℤ) (s : Window.Mean N (X F)) : Window.Mean N (X F) :=
  { window := ring k s.window, mean := s.mean.sc k }
@[inherit_doc ring] noncomputable def wvariance (k : ℤ) (s : Window.Variance N (X F)) : Window.Variance N (X F) :=
  { super := wmean k s.super, sumVariance := s.sumVariance.sc (k + k) }

variable (hF : F.Scales) (k : ℤ)
include hF

theorem wmean_push (s : Window.Mean N (X F)) (x : X F) : (wmean k s).push (x.sc k) = (s.push x).map (wmean k) := by
  unfold Window.Mean.push
  have h1 : (wmean k s).full = s.full := Neg.ring_map_full (X.sc k) _
  have h2 : (wmean k s).window.front = s.window.front.map (X.sc k) := Neg.ring_map_front (X.sc k) _
  have h3 : (wmean k s).size = s.size := Neg.ring_map_size (X.sc k) _
  have h4 : (wmean k s).window.pushBack (x.sc k) = ring k (s.window.pushBack x) := Neg.ring_map_push (X.sc k) _ _
  rw [h1, h2, h3, h4]
  by_cases h : s.full = true
  · rw [if_pos h, if_pos h]
    cases s.window.front with
    | none => rfl
    | some front =>
      show some (⟨_, s.mean.sc k + (x.sc k - front.sc k) / ofNat s.size⟩ : Window.Mean N (X F)) = some ⟨_, _⟩
      rw [hF.sub, hF.div_left, hF.add]
  · rw [if_neg h, if_neg h]
    show some (⟨_, s.mean.sc k + (x.sc k - s.mean.sc k) / ofNat (s.size + 1)⟩ : Window.Mean N (X F)) = some ⟨_, _⟩
    rw [hF.sub, hF.div_left, hF.add]

theorem wdelta (m x o : X F) : Window.Variance.delta (m.sc k) (x.sc k) (o.sc k) = (Window.Variance.delta m x o).sc (k + k) := by
  unfold Window.Variance.delta
  rw [hF.sub, hF.sub, hF.mul]

theorem wvariance_push (s : Window.Variance N (X F)) (x : X F) : (wvariance k s).push (x.sc k) = (s.push x).map (wvariance k) := by
  unfold Window.Variance.push
  have h1 : (wvariance k s).super.full = s.super.full := Neg.ring_map_full (X.sc k) _
  have h2 : (wvariance k s).super.window.front = s.super.window.front.map (X.sc k) := Neg.ring_map_front (X.sc k) _
  have h3 : (wvariance k s).size = s.size := Neg.ring_map_size (X.sc k) _
  have h4 : (wvariance k s).super.window.pushBack (x.sc k) = ring k (s.super.window.pushBack x) := Neg.ring_map_push (X.sc k) _ _
  have h5 : (wvariance k s).super.mean = s.super.mean.sc k := rfl
  have h6 : (wvariance k s).super.getMean = s.super.mean.sc k := rfl
  have h7 : (wvariance k s).sumVariance = s.sumVariance.sc (k + k) := rfl
  rw [h1, h2, h3, h4, h5, h6, h7]
  by_cases h : s.super.full = true
  · rw [if_pos h, if_pos h]
    cases s.super.window.front with
    | none => rfl
    | some front =>
      show some (⟨⟨_, s.super.mean.sc k + (x.sc k - front.sc k) / ofNat s.size⟩,
        s.sumVariance.sc (k + k) + Window.Variance.delta (s.super.mean.sc k + (x.sc k - front.sc k) / ofNat s.size) (x.sc k) (s.super.mean.sc k)
          - Window.Variance.delta (s.super.mean.sc k + (x.sc k - front.sc k) / ofNat s.size) (front.sc k) (s.super.mean.sc k)⟩ : Window.Variance N (X F))
        = some (wvariance k ⟨⟨_, _⟩, _⟩)
      rw [hF.sub k x, hF.div_left, hF.add, wdelta hF, wdelta hF, hF.add, hF.sub]
      rfl
  · rw [if_neg h, if_neg h]
    show some (⟨⟨_, s.super.mean.sc k + (x.sc k - s.super.mean.sc k) / ofNat (s.size + 1)⟩,
        s.sumVariance.sc (k + k) + Window.Variance.delta (s.super.mean.sc k + (x.sc k - s.super.mean.sc k) / ofNat (s.size + 1)) (x.sc k) (s.super.mean.sc k)⟩ :
          Window.Variance N (X F))
        = some (wvariance k ⟨⟨_, _⟩, _⟩)
    rw [hF.sub, hF.div_left, hF.add, wdelta hF, hF.add]
    rfl

theorem wmean_zero : (Window.Mean.init : Window.Mean N (X F)) = wmean k Window.Mean.init := by
  show _ = (⟨⟨[]⟩, (ofNat 0 : X F).sc k⟩ : Window.Mean N (X F))
  rw [hF.sc_ofNat_zero]; rfl

theorem wvariance_zero : (Window.Variance.init : Window.Variance N (X F)) = wvariance k Window.Variance.init := by
  show _ = (⟨⟨⟨[]⟩, (ofNat 0 : X F).sc k⟩, (ofNat 0 : X F).sc (k + k)⟩ : Window.Variance N (X F))
  rw [hF.sc_ofNat_zero, hF.sc_ofNat_zero]; rfl

theorem wmean_run (ops : List (Op (X F))) :
    (Window.Mean.run (scOps k ops) : Option (Window.Mean N (X F))) = (Window.Mean.run ops).map (wmean k) := by
  refine runOps_hom (Option.map (wmean k)) (X.sc k) ?_ ?_ ?_ ops
  · exact congrArg some (wmean_zero hF k)
  · intro s x
    cases s with
    | none => rfl
    | some s => exact wmean_push hF k s x
  · intro s
    cases s with
    | none => rfl
    | some s => exact congrArg some (wmean_zero hF k)

theorem wvariance_run (ops : List (Op (X F))) :
    (Window.Variance.run (scOps k ops) : Option (Window.Variance N (X F))) = (Window.Variance.run ops).map (wvariance k) := by
  refine runOps_hom (Option.map (wvariance k)) (X.sc k) ?_ ?_ ?_ ops
  · exact congrArg some (wvariance_zero hF k)
  · intro s x
    cases s with
    | none => rfl
    | some s => exact wvariance_push hF k s x
  · intro s
    cases s with
    | none => rfl
    | some s => exact congrArg some (wvariance_zero hF k)

theorem wvariance_get (s : Window.Variance N (X F)) :
    (wvariance k s).variance = s.variance.sc (k + k) ∧ (wvariance k s).unbiasedVariance = s.unbiasedVariance.sc (k + k) := by
  have h3 : (wvariance k s).size = s.size := Neg.ring_map_size (X.sc k) _
  have h7 : (wvariance k s).sumVariance = s.sumVariance.sc (k + k) := rfl
  unfold Window.Variance.variance Window.Variance.unbiasedVariance
  dsimp only
  rw [h3, h7, hF.div_left, hF.div_left, hF.max_zero, hF.max_zero]
  exact ⟨hF.cond _ _ _, hF.cond _ _ _⟩

end Sc

/-- C142: the window filters. -/
theorem C142_window_partial {N : Nat} (hF : F.Scales) (k : ℤ) (ops : List (Op (X F))) :
    (Window.Mean.run (scOps k ops) : Option (Window.Mean N (X F))).map (·.getMean)
      = (Window.Mean.run ops : Option (Window.Mean N (X F))).map (·.getMean.sc k)
    ∧ (Window.Variance.run (scOps k ops) : Option (Window.Variance N (X F))).map (fun s => (s.getMean, s.variance, s.unbiasedVariance))
      = (Window.Variance.run ops : Option (Window.Variance N (X F))).map
          (fun s => (s.getMean.sc k, s.variance.sc (k + k), s.unbiasedVariance.sc (k + k))) := by
  constructor
  · rw [Sc.wmean_run hF, Option.map_map]; rfl
  · rw [Sc.wvariance_run hF, Option.map_map]
    congr 1
    funext s
    have h := Sc.wvariance_get hF k s
    show ((Sc.wvariance k s).getMean, (Sc.wvariance k s).variance, (Sc.wvariance k s).unbiasedVariance) = _
    rw [h.1, h.2]
    rfl

/-! ### Decaying filters -/

namespace Sc
open Decay

/-- The state for the scaled data. -/
noncomputable def dmean (k : ℤ) (s : Decay.Mean (X F)) : Decay.Mean (X F) := { s with sumMean := s.sumMean.sc k }
@[inherit_doc dmean] noncomputable def dvariance (k : ℤ) (s : Decay.Variance (X F)) : Decay.Variance (X F) :=
  { s with super := dmean k s.super, sumVariance := s.sumVariance.sc (k + k) }
@[inherit_doc dmean] noncomputable def dskewness (k : ℤ) (s : Decay.Skewness (X F)) : Decay.Skewness (X F) :=
  { s with super := dvariance k s.super, sumSkewness := s.sumSkewness.sc (k + k + k) }
@[inherit_doc dmean] noncomputable def dkurtosis (k : ℤ) (s : Decay.Kurtosis (X F)) : Decay.Kurtosis (X F) :=
  { s with super := dskewness k s.super, sumKurtosis := s.sumKurtosis.sc (k + k + k + k) }

variable (hF : F.Scales) (k : ℤ)
include hF

theorem dmean_get (s : Decay.Mean (X F)) : (dmean k s).mean = s.mean.sc k := by
  show (if lt (ofNat 0) s.normalization = true then s.sumMean.sc k / s.normalization else ofNat 0) = _
  rw [hF.div_left, hF.cond]; rfl

theorem dmean_push (s : Decay.Mean (X F)) (x : X F) : (dmean k s).push (x.sc k) = dmean k (s.push x) := by
  show (⟨_, _, s.sumMean.sc k + s.meanFactor * (x.sc k - s.sumMean.sc k)⟩ : Decay.Mean (X F)) = ⟨_, _, _⟩
  rw [hF.sub, hF.mul_right, hF.add]
  rfl

theorem ddelta (s : Decay.Mean (X F)) (x : X F) : x.sc k - ((dmean k s).push (x.sc k)).mean = (x - (s.push x).mean).sc k := by
  rw [dmean_push hF, dmean_get hF, hF.sub]

theorem dvariance_push (s : Decay.Variance (X F)) (x : X F) : (dvariance k s).push (x.sc k) = dvariance k (s.push x) := by
  show (⟨(dmean k s.super).push (x.sc k), _, _, s.sumVariance.sc (k + k) + s.varFactor *
    ((x.sc k - ((dmean k s.super).push (x.sc k)).mean) * (x.sc k - ((dmean k s.super).push (x.sc k)).mean) - s.sumVariance.sc (k + k))⟩ :
      Decay.Variance (X F)) = ⟨_, _, _, _⟩
  rw [ddelta hF, dmean_push hF, hF.mul, hF.sub, hF.mul_right, hF.add]
  rfl

theorem dskewness_push (s : Decay.Skewness (X F)) (x : X F) : (dskewness k s).push (x.sc k) = dskewness k (s.push x) := by
  show (⟨(dvariance k s.super).push (x.sc k), _, _, s.sumSkewness.sc (k + k + k) + s.skewnessFactor *
    ((x.sc k - ((dmean k s.super.super).push (x.sc k)).mean) * (x.sc k - ((dmean k s.super.super).push (x.sc k)).mean)
      * (x.sc k - ((dmean k s.super.super).push (x.sc k)).mean) - s.sumSkewness.sc (k + k + k))⟩ : Decay.Skewness (X F)) = ⟨_, _, _, _⟩
  rw [ddelta hF, dvariance_push hF, hF.mul, hF.mul, hF.sub, hF.mul_right, hF.add]
  rfl

theorem dkurtosis_push (s : Decay.Kurtosis (X F)) (x : X F) : (dkurtosis k s).push (x.sc k) = dkurtosis k (s.push x) := by
  show (⟨(dskewness k s.super).push (x.sc k), _, _, s.sumKurtosis.sc (k + k + k + k) + s.kurtosisFactor *
    ((x.sc k - ((dmean k s.super.super.super).push (x.sc k)).mean) * (x.sc k - ((dmean k s.super.super.super).push (x.sc k)).mean)
      * (x.sc k - ((dmean k s.super.super.super).push (x.sc k)).mean) * (x.sc k - ((dmean k s.super.super.super).push (x.sc k)).mean)
      - s.sumKurtosis.sc (k + k + k + k))⟩ : Decay.Kurtosis (X F)) = ⟨_, _, _, _⟩
  rw [ddelta hF, dskewness_push hF, hF.mul, hF.mul, hF.mul, hF.sub, hF.mul_right, hF.add]
  rfl

theorem dmean_zero (f n : X F) : (⟨f, n, ofNat 0⟩ : Decay.Mean (X F)) = dmean k ⟨f, n, ofNat 0⟩ := by
  show _ = (⟨f, n, (ofNat 0 : X F).sc k⟩ : Decay.Mean (X F))
  rw [hF.sc_ofNat_zero]

theorem dmean_run (f : X F) (ops : List (Op (X F))) : Decay.Mean.run f (scOps k ops) = dmean k (Decay.Mean.run f ops) :=
  runOps_hom (dmean k) (X.sc k) (dmean_zero hF k _ _) (dmean_push hF k) (fun _ => dmean_zero hF k _ _) ops

theorem dvariance_zero (f n g m : X F) :
    (⟨⟨f, n, ofNat 0⟩, g, m, ofNat 0⟩ : Decay.Variance (X F)) = dvariance k ⟨⟨f, n, ofNat 0⟩, g, m, ofNat 0⟩ := by
  show _ = (⟨⟨f, n, (ofNat 0 : X F).sc k⟩, g, m, (ofNat 0 : X F).sc (k + k)⟩ : Decay.Variance (X F))
  rw [hF.sc_ofNat_zero, hF.sc_ofNat_zero]

theorem dvariance_run (f g : X F) (ops : List (Op (X F))) : Decay.Variance.run f g (scOps k ops) = dvariance k (Decay.Variance.run f g ops) :=
  runOps_hom (dvariance k) (X.sc k) (dvariance_zero hF k _ _ _ _) (dvariance_push hF k) (fun _ => dvariance_zero hF k _ _ _ _) ops

theorem dskewness_zero (f n g m h i : X F) :
    (⟨⟨⟨f, n, ofNat 0⟩, g, m, ofNat 0⟩, h, i, ofNat 0⟩ : Decay.Skewness (X F)) = dskewness k ⟨⟨⟨f, n, ofNat 0⟩, g, m, ofNat 0⟩, h, i, ofNat 0⟩ := by
  show _ = (⟨dvariance k ⟨⟨f, n, ofNat 0⟩, g, m, ofNat 0⟩, h, i, (ofNat 0 : X F).sc (k + k + k)⟩ : Decay.Skewness (X F))
  rw [hF.sc_ofNat_zero, ← dvariance_zero hF]

theorem dskewness_run (f g h : X F) (ops : List (Op (X F))) :
    Decay.Skewness.run f g h (scOps k ops) = dskewness k (Decay.Skewness.run f g h ops) :=
  runOps_hom (dskewness k) (X.sc k) (dskewness_zero hF k _ _ _ _ _ _) (dskewness_push hF k) (fun _ => dskewness_zero hF k _ _ _ _ _ _) ops

theorem dkurtosis_zero (f n g m h i a b : X F) :
    (⟨⟨⟨⟨f, n, ofNat 0⟩, g, m, ofNat 0⟩, h, i, ofNat 0⟩, a, b, ofNat 0⟩ : Decay.Kurtosis (X F))
      = dkurtosis k ⟨⟨⟨⟨f, n, ofNat 0⟩, g, m, ofNat 0⟩, h, i, ofNat 0⟩, a, b, ofNat 0⟩ := by
  show _ = (⟨dskewness k ⟨⟨⟨f, n, ofNat 0⟩, g, m, ofNat 0⟩, h, i, ofNat 0⟩, a, b, (ofNat 0 : X F).sc (k + k + k + k)⟩ : Decay.Kurtosis (X F))
  rw [hF.sc_ofNat_zero, ← dskewness_zero hF]

theorem dkurtosis_run (f g h i : X F) (ops : List (Op (X F))) :
    Decay.Kurtosis.run f g h i (scOps k ops) = dkurtosis k (Decay.Kurtosis.run f g h i ops) :=
  runOps_hom (dkurtosis k) (X.sc k) (dkurtosis_zero hF k _ _ _ _ _ _ _ _) (dkurtosis_push hF k)
    (fun _ => dkurtosis_zero hF k _ _ _ _ _ _ _ _) ops

theorem dvariance_get (s : Decay.Variance (X F)) : (dvariance k s).variance = s.variance.sc (k + k) := by
  show (if lt (ofNat 0) s.normalization = true then s.sumVariance.sc (k + k) / s.normalization else ofNat 0) = _
  rw [hF.div_left, hF.cond]; rfl

end Sc

/-- C142: decaying mean and variance are multiplied by `2^k` and `2^2k`; skewness and kurtosis do not change if the variance is on
the same side of the cut-off before and after scaling. -/
theorem C142_decay_partial (hF : F.Scales) (k : ℤ) (f g h i : X F) (ops : List (Op (X F))) :
    (Decay.Mean.run f (scOps k ops)).mean = ((Decay.Mean.run f ops).mean).sc k
    ∧ (Decay.Variance.run f g (scOps k ops)).variance = ((Decay.Variance.run f g ops).variance).sc (k + k)
    ∧ (lt eps ((Decay.Skewness.run f g h ops).variance.sc (k + k)) = lt eps (Decay.Skewness.run f g h ops).variance →
      (Decay.Skewness.run f g h (scOps k ops)).skewness = (Decay.Skewness.run f g h ops).skewness)
    ∧ (lt eps ((Decay.Kurtosis.run f g h i ops).variance.sc (k + k)) = lt eps (Decay.Kurtosis.run f g h i ops).variance →
      (Decay.Kurtosis.run f g h i (scOps k ops)).kurtosis = (Decay.Kurtosis.run f g h i ops).kurtosis) := by
  refine ⟨?_, ?_, ?_, ?_⟩
  · rw [Sc.dmean_run hF, Sc.dmean_get hF]
  · rw [Sc.dvariance_run hF, Sc.dvariance_get hF]
  · rw [Sc.dskewness_run hF]
    generalize Decay.Skewness.run f g h ops = s
    intro hc
    show (if lt (ofNat 0) s.normalization = true then
        (if lt eps (Sc.dvariance k s.super).variance = true then
          s.sumSkewness.sc (k + k + k) / ((Sc.dvariance k s.super).variance * Scalar.sqrt (Sc.dvariance k s.super).variance) / s.normalization else ofNat 0)
      else ofNat 0) = _
    rw [Sc.dvariance_get hF, show lt eps (s.super.variance.sc (k + k)) = lt eps s.super.variance from hc, hF.sqrt, hF.mul, hF.div,
      show k + k + k - (k + k + k) = 0 by ring, Fmt.Scales.sc_zero]
    rfl
  · rw [Sc.dkurtosis_run hF]
    generalize Decay.Kurtosis.run f g h i ops = s
    intro hc
    show (if lt (ofNat 0) s.normalization = true then
        (if lt eps (Sc.dvariance k s.super.super).variance = true then
          s.sumKurtosis.sc (k + k + k + k) / ((Sc.dvariance k s.super.super).variance * (Sc.dvariance k s.super.super).variance) / s.normalization else ofNat 0)
      else ofNat 0) = _
    rw [Sc.dvariance_get hF, show lt eps (s.super.super.variance.sc (k + k)) = lt eps s.super.super.variance from hc, hF.mul, hF.div,
      show k + k + k + k - (k + k + (k + k)) = 0 by ring, Fmt.Scales.sc_zero]
    rfl

/-! ### Impulse response filters -/

namespace Sc
open Impulse (Deque innerProduct)

/-- The contents for the scaled data. -/
noncomputable def deque (k : ℤ) (d : Deque (X F)) : Deque (X F) := { d with items := d.items.map (X.sc k) }
@[inherit_doc deque] noncomputable def fir (k : ℤ) (s : Impulse.Finite (X F)) : Impulse.Finite (X F) :=
  { s with input := deque k s.input, output := s.output.sc k }
@[inherit_doc deque] noncomputable def iir (k : ℤ) (s : Impulse.Infinite (X F)) : Impulse.Infinite (X F) :=
  { s with inputWindow := deque k s.inputWindow, outputWindow := deque k s.outputWindow }

theorem deque_push (k : ℤ) (d : Deque (X F)) (x : X F) : (deque k d).pushFront (x.sc k) = deque k (d.pushFront x) := by
  have h : (deque k d).full = d.full := by simp [Deque.full, deque]
  unfold Deque.pushFront
  rw [h]
  cases hc : d.full <;> simp [deque]

variable (hF : F.Scales) (k : ℤ)
include hF

theorem inner (acc : X F) (xs cs : List (X F)) :
    innerProduct (acc.sc k) (xs.map (X.sc k)) cs = (innerProduct acc xs cs).map (X.sc k) := by
  induction xs generalizing acc cs with
  | nil => rfl
  | cons x xs ih =>
    cases cs with
    | nil => rfl
    | cons c cs =>
      show innerProduct (acc.sc k + x.sc k * c) (xs.map (X.sc k)) cs = _
      rw [hF.mul_left, hF.add, ih]; rfl

theorem inner_zero (xs cs : List (X F)) :
    innerProduct (ofNat 0) (xs.map (X.sc k)) cs = (innerProduct (ofNat 0) xs cs).map (X.sc k) := by
  rw [← inner hF, hF.sc_ofNat_zero]

theorem fir_push (s : Impulse.Finite (X F)) (x : X F) : (fir k s).push (x.sc k) = (s.push x).map (fir k) := by
  unfold Impulse.Finite.push
  show Option.map _ (innerProduct (ofNat 0) ((deque k s.input).pushFront (x.sc k)).items s.coefficients) = _
  rw [deque_push]
  show Option.map _ (innerProduct (ofNat 0) ((s.input.pushFront x).items.map (X.sc k)) s.coefficients) = _
  rw [inner_zero hF, Option.map_map, Option.map_map]
  congr 1
  funext o
  show (⟨(deque k s.input).pushFront (x.sc k), o.sc k, s.coefficients⟩ : Impulse.Finite (X F)) = ⟨deque k (s.input.pushFront x), o.sc k, s.coefficients⟩
  rw [deque_push]

theorem fir_run (cs : List (X F)) (ops : List (Op (X F))) : Impulse.Finite.run cs (scOps k ops) = (Impulse.Finite.run cs ops).map (fir k) := by
  refine runOps_hom (Option.map (fir k)) (X.sc k) ?_ ?_ ?_ ops
  · show some (⟨_, ofNat 0, _⟩ : Impulse.Finite (X F)) = some ⟨_, (ofNat 0 : X F).sc k, _⟩
    rw [hF.sc_ofNat_zero]; rfl
  · intro s x
    cases s with
    | none => rfl
    | some s => exact fir_push hF k s x
  · intro s
    cases s <;> rfl

theorem iir_push (s : Impulse.Infinite (X F)) (x : X F) : (iir k s).push (x.sc k) = (s.push x).map (iir k) := by
  unfold Impulse.Infinite.push
  show ((innerProduct (ofNat 0) ((deque k s.inputWindow).pushFront (x.sc k)).items s.inputCoefficients).bind fun ff =>
    (innerProduct (ofNat 0) (s.outputWindow.items.map (X.sc k)) s.outputCoefficients).bind fun fb =>
      some (⟨(deque k s.inputWindow).pushFront (x.sc k), s.inputCoefficients, (deque k s.outputWindow).pushFront ((ff - fb) / s.outputScale),
        s.outputScale, s.outputCoefficients⟩ : Impulse.Infinite (X F)))
    = Option.map (iir k) ((innerProduct (ofNat 0) (s.inputWindow.pushFront x).items s.inputCoefficients).bind fun ff =>
    (innerProduct (ofNat 0) s.outputWindow.items s.outputCoefficients).bind fun fb =>
      some (⟨s.inputWindow.pushFront x, s.inputCoefficients, s.outputWindow.pushFront ((ff - fb) / s.outputScale),
        s.outputScale, s.outputCoefficients⟩ : Impulse.Infinite (X F)))
  rw [deque_push, show (deque k (s.inputWindow.pushFront x)).items = (s.inputWindow.pushFront x).items.map (X.sc k) from rfl]
  rw [inner_zero hF, inner_zero hF]
  cases innerProduct (ofNat 0) (s.inputWindow.pushFront x).items s.inputCoefficients with
  | none => rfl
  | some ff =>
    cases innerProduct (ofNat 0) s.outputWindow.items s.outputCoefficients with
    | none => rfl
    | some fb =>
      show some (⟨deque k (s.inputWindow.pushFront x), s.inputCoefficients, (deque k s.outputWindow).pushFront ((ff.sc k - fb.sc k) / s.outputScale),
        s.outputScale, s.outputCoefficients⟩ : Impulse.Infinite (X F)) = some ⟨_, _, deque k (s.outputWindow.pushFront ((ff - fb) / s.outputScale)), _, _⟩
      rw [hF.sub, hF.div_left, deque_push]

theorem iir_run (as bs : List (X F)) (c : X F) (ops : List (Op (X F))) :
    Impulse.Infinite.run as bs c (scOps k ops) = (Impulse.Infinite.run as bs c ops).map (iir k) := by
  refine runOps_hom (Option.map (iir k)) (X.sc k) ?_ ?_ ?_ ops
  · rfl
  · intro s x
    cases s with
    | none => rfl
    | some s => exact iir_push hF k s x
  · intro s
    cases s <;> rfl

theorem iir_value (s : Impulse.Infinite (X F)) : (iir k s).value = s.value.sc k := by
  unfold Impulse.Infinite.value
  rw [show (iir k s).outputWindow.items = s.outputWindow.items.map (X.sc k) from rfl]
  cases s.outputWindow.items with
  | nil => exact (hF.sc_ofNat_zero k).symm
  | cons y ys => rfl

end Sc

/-- C142: the outputs of the impulse response filters are multiplied by `2^k`. -/
theorem C142_impulse_partial (hF : F.Scales) (k : ℤ) (as bs : List (X F)) (c : X F) (ops : List (Op (X F))) :
    (Impulse.Finite.run as (scOps k ops)).map (·.value) = (Impulse.Finite.run as ops).map (·.value.sc k)
    ∧ (Impulse.Infinite.run as bs c (scOps k ops)).map (·.value) = (Impulse.Infinite.run as bs c ops).map (·.value.sc k) := by
  constructor
  · rw [Sc.fir_run hF, Option.map_map]; rfl
  · rw [Sc.iir_run hF, Option.map_map]
    congr 1
    funext s
    exact Sc.iir_value hF k s

/-! ### Covariance, correlation and regression -/

namespace Sc
open Cumulative

/-- The state for scaled pairs. -/
noncomputable def co (j k : ℤ) (s : Comoment w (X F)) : Comoment w (X F) := ⟨mean j s.xCenter, mean k s.yCenter, s.center.sc (j + k)⟩
@[inherit_doc co] noncomputable def cor (j k : ℤ) (s : Correlation w (X F)) : Correlation w (X F) := ⟨co j k s.co, variance j s.x, variance k s.y⟩
@[inherit_doc co] noncomputable def reg (j k : ℤ) (s : Regression w (X F)) : Regression w (X F) := ⟨co j k s.co, variance j s.x, variance k s.y⟩

variable (hF : F.Scales) (j k : ℤ)
include hF

theorem co_init : (Comoment.init : Comoment w (X F)) = co j k Comoment.init := by
  show (⟨Mean.init, Mean.init, ofNat 0⟩ : Comoment w (X F)) = ⟨mean j Mean.init, mean k Mean.init, (ofNat 0 : X F).sc _⟩
  rw [← mean_init hF, ← mean_init hF, hF.sc_ofNat_zero]

theorem co_push (s : Comoment w (X F)) (q : X F × X F) : (co j k s).push (q.1.sc j, q.2.sc k) = co j k (s.push q) := by
  show (⟨(mean j s.xCenter).push (q.1.sc j), (mean k s.yCenter).push (q.2.sc k),
      s.center.sc (j + k) + (q.1.sc j - ((mean j s.xCenter).push (q.1.sc j)).mean) * (q.2.sc k - s.yCenter.mean.sc k)⟩ :
    Comoment w (X F)) = ⟨_, _, (s.center + (q.1 - (s.xCenter.push q.1).mean) * (q.2 - s.yCenter.mean)).sc (j + k)⟩
  rw [mean_push hF, mean_push hF, show (mean j (s.xCenter.push q.1)).mean = (s.xCenter.push q.1).mean.sc j from rfl, hF.sub, hF.sub, hF.mul, hF.add]
  rfl

theorem co_run (ops : List (Op (X F × X F))) : (Comoment.run (scOps2 j k ops) : Comoment w (X F)) = co j k (Comoment.run ops) := by
  refine runOps_hom (co j k) (fun q => (q.1.sc j, q.2.sc k)) ?_ ?_ ?_ ops
  · exact co_init hF j k
  · exact co_push hF j k
  · exact fun _ => co_init hF j k

theorem cor_run (ops : List (Op (X F × X F))) : (Correlation.run (scOps2 j k ops) : Correlation w (X F)) = cor j k (Correlation.run ops) := by
  have h0 : (⟨Comoment.init, Variance.init, Variance.init⟩ : Correlation w (X F))
      = ⟨co j k Comoment.init, variance j Variance.init, variance k Variance.init⟩ := by
    rw [← co_init hF, ← variance_init hF, ← variance_init hF]
  refine runOps_hom (cor j k) (fun q => (q.1.sc j, q.2.sc k)) ?_ ?_ ?_ ops
  · exact h0
  swap
  · exact fun _ => h0
  intro s q
  show (⟨(co j k s.co).push (q.1.sc j, q.2.sc k), (variance j s.x).push (q.1.sc j), (variance k s.y).push (q.2.sc k)⟩ : Correlation w (X F))
    = ⟨co j k (s.co.push q), variance j (s.x.push q.1), variance k (s.y.push q.2)⟩
  rw [co_push hF, variance_push hF, variance_push hF]

theorem reg_run (ops : List (Op (X F × X F))) : (Regression.run (scOps2 j k ops) : Regression w (X F)) = reg j k (Regression.run ops) := by
  have h0 : (⟨Comoment.init, Variance.init, Variance.init⟩ : Regression w (X F))
      = ⟨co j k Comoment.init, variance j Variance.init, variance k Variance.init⟩ := by
    rw [← co_init hF, ← variance_init hF, ← variance_init hF]
  refine runOps_hom (reg j k) (fun q => (q.1.sc j, q.2.sc k)) ?_ ?_ ?_ ops
  · exact h0
  swap
  · exact fun _ => h0
  intro s q
  show (⟨(co j k s.co).push (q.1.sc j, q.2.sc k), (variance j s.x).push (q.1.sc j), (variance k s.y).push (q.2.sc k)⟩ : Regression w (X F))
    = ⟨co j k (s.co.push q), variance j (s.x.push q.1), variance k (s.y.push q.2)⟩
  rw [co_push hF, variance_push hF, variance_push hF]

theorem co_get (s : Comoment w (X F)) :
    (co j k s).variance = s.variance.sc (j + k) ∧ (co j k s).unbiasedVariance = s.unbiasedVariance.sc (j + k) := by
  have h1 : (co j k s).center = s.center.sc (j + k) := rfl
  have h2 : (co j k s).size = s.size := rfl
  unfold Comoment.variance Comoment.unbiasedVariance
  rw [h1, h2, hF.div_left, hF.div_left]
  exact ⟨hF.cond _ _ _, hF.cond _ _ _⟩

theorem variance_get (s : Variance w (X F)) : (variance k s).variance = s.variance.sc (k + k) := by
  show s.sumVariance.sc (k + k) / _ = _
  rw [hF.div_left]; rfl

/-- The slope of a line through scaled pairs. -/
theorem slope_get (c v : X F) : (if beq (v.sc (j + j)) (ofNat 0) then ofNat 0 else c.sc (j + k) / v.sc (j + j) : X F)
    = (if beq v (ofNat 0) then ofNat 0 else c / v : X F).sc (k - j) := by
  rw [hF.beq_zero, hF.div, show j + k - (j + j) = k - j by ring, hF.cond']

/-- The value of a line through scaled pairs. -/
theorem at_get (a s m x : X F) : a.sc k - s.sc (k - j) * (m.sc j - x.sc j) = (a - s * (m - x)).sc k := by
  rw [hF.sub, hF.mul, show k - j + j = k by ring, hF.sub]

end Sc

open Cumulative in
/-- C142: the covariance is multiplied by both factors, the slope of the regression by their quotient, and the values of the
regression line by the second one. -/
theorem C142_pairs_partial (hF : F.Scales) (j k : ℤ) (ops : List (Op (X F × X F))) (x : X F) :
    (Comoment.run (scOps2 j k ops) : Comoment w (X F)).variance = ((Comoment.run ops : Comoment w (X F)).variance).sc (j + k)
    ∧ (Comoment.run (scOps2 j k ops) : Comoment w (X F)).unbiasedVariance = ((Comoment.run ops : Comoment w (X F)).unbiasedVariance).sc (j + k)
    ∧ (Regression.run (scOps2 j k ops) : Regression w (X F)).slope = ((Regression.run ops : Regression w (X F)).slope).sc (k - j)
    ∧ (Regression.run (scOps2 j k ops) : Regression w (X F)).at' (x.sc j) = ((Regression.run ops : Regression w (X F)).at' x).sc k := by
  rw [Sc.co_run hF, Sc.reg_run hF]
  have e : ∀ s : Regression w (X F), (Sc.reg j k s).slope = s.slope.sc (k - j) := by
    intro s
    show (if beq (Sc.variance j s.x).variance (ofNat 0) then ofNat 0 else (Sc.co j k s.co).variance / (Sc.variance j s.x).variance) = _
    rw [Sc.variance_get hF, (Sc.co_get hF j k s.co).1, Sc.slope_get hF]; rfl
  refine ⟨(Sc.co_get hF j k _).1, (Sc.co_get hF j k _).2, e _, ?_⟩
  generalize (Regression.run ops : Regression w (X F)) = s
  show s.y.super.mean.sc k - (Sc.reg j k s).slope * (s.x.super.mean.sc j - x.sc j) = _
  rw [e, Sc.at_get hF]; rfl

open Cumulative in
/-- C142: the correlation does not change if the product of the variances is on the same side of the cut-off before and after
scaling. -/
theorem C142_correlation_partial (hF : F.Scales) (j k : ℤ) (ops : List (Op (X F × X F))) :
    let s : Correlation w (X F) := Correlation.run ops
    lt ((s.x.variance * s.y.variance).sc (j + k + (j + k))) eps = lt (s.x.variance * s.y.variance) eps →
      (Correlation.run (scOps2 j k ops) : Correlation w (X F)).value = s.value := by
  intro s h
  rw [Sc.cor_run hF]
  show (Sc.cor j k s).value = s.value
  have e : (Sc.cor j k s).value = if lt ((Sc.variance j s.x).variance * (Sc.variance k s.y).variance) eps then ofNat 1
    else (Sc.co j k s.co).variance / Scalar.sqrt ((Sc.variance j s.x).variance * (Sc.variance k s.y).variance) := rfl
  rw [e, Sc.variance_get hF, Sc.variance_get hF, (Sc.co_get hF j k s.co).1, hF.mul, show j + j + (k + k) = j + k + (j + k) by ring, h, hF.sqrt, hF.div,
    show j + k - (j + k) = 0 by ring, Fmt.Scales.sc_zero]
  rfl

namespace Sc
open Window
variable {N : Nat}

/-- The state for scaled pairs. -/
noncomputable def wco (j k : ℤ) (s : Window.Comoment N (X F)) : Window.Comoment N (X F) :=
  { window := ⟨s.window.items.map fun q => (q.1.sc j, q.2.sc k)⟩, sumX := s.sumX.sc j, sumY := s.sumY.sc k, sumXY := s.sumXY.sc (j + k) }
@[inherit_doc wco] noncomputable def wreg (j k : ℤ) (s : Window.Regression N (X F)) : Window.Regression N (X F) :=
  ⟨wco j k s.covariance, wvariance j s.xMoment⟩

variable (hF : F.Scales) (j k : ℤ)
include hF

theorem wco_push (s : Window.Comoment N (X F)) (q : X F × X F) : (wco j k s).push (q.1.sc j, q.2.sc k) = (s.push q).map (wco j k) := by
  unfold Window.Comoment.push
  have h1 : (wco j k s).window.full = s.window.full := Neg.ring_map_full _ _
  have h2 : (wco j k s).window.front = s.window.front.map (fun q => (q.1.sc j, q.2.sc k)) := Neg.ring_map_front _ _
  have h4 : (wco j k s).window.pushBack (q.1.sc j, q.2.sc k) = ⟨(s.window.pushBack q).items.map fun q => (q.1.sc j, q.2.sc k)⟩ :=
    Neg.ring_map_push (fun q : X F × X F => (q.1.sc j, q.2.sc k)) _ q
  dsimp only
  rw [h1, h2, h4]
  by_cases h : s.window.full = true
  · rw [if_pos h, if_pos h]
    cases s.window.front with
    | none => rfl
    | some front =>
      show some (⟨_, s.sumX.sc j + (q.1.sc j - front.1.sc j), s.sumY.sc k + (q.2.sc k - front.2.sc k),
        s.sumXY.sc (j + k) + (q.1.sc j * q.2.sc k - front.1.sc j * front.2.sc k)⟩ : Window.Comoment N (X F))
        = some (wco j k ⟨_, _, _, _⟩)
      rw [hF.sub, hF.sub, hF.add, hF.add, hF.mul, hF.mul, hF.sub, hF.add]
      rfl
  · rw [if_neg h, if_neg h]
    show some (⟨_, s.sumX.sc j + q.1.sc j, s.sumY.sc k + q.2.sc k, s.sumXY.sc (j + k) + q.1.sc j * q.2.sc k⟩ : Window.Comoment N (X F))
      = some (wco j k ⟨_, _, _, _⟩)
    rw [hF.add, hF.add, hF.mul, hF.add]
    rfl

theorem wco_zero : (Window.Comoment.init : Window.Comoment N (X F)) = wco j k Window.Comoment.init := by
  show _ = (⟨⟨[]⟩, (ofNat 0 : X F).sc j, (ofNat 0 : X F).sc k, (ofNat 0 : X F).sc (j + k)⟩ : Window.Comoment N (X F))
  rw [hF.sc_ofNat_zero, hF.sc_ofNat_zero, hF.sc_ofNat_zero]; rfl

theorem wco_run (ops : List (Op (X F × X F))) :
    (Window.Comoment.run (scOps2 j k ops) : Option (Window.Comoment N (X F))) = (Window.Comoment.run ops).map (wco j k) := by
  refine runOps_hom (Option.map (wco j k)) (fun q => (q.1.sc j, q.2.sc k)) ?_ ?_ ?_ ops
  · exact congrArg some (wco_zero hF j k)
  · intro s q
    cases s with
    | none => rfl
    | some s => exact wco_push hF j k s q
  · intro s
    cases s with
    | none => rfl
    | some s => exact congrArg some (wco_zero hF j k)

theorem wreg_zero : (Window.Regression.init : Window.Regression N (X F)) = wreg j k Window.Regression.init := by
  show (⟨Window.Comoment.init, Window.Variance.init⟩ : Window.Regression N (X F)) = ⟨wco j k Window.Comoment.init, wvariance j Window.Variance.init⟩
  rw [← wco_zero hF, ← wvariance_zero hF]

theorem wreg_push (s : Window.Regression N (X F)) (q : X F × X F) : (wreg j k s).push (q.1.sc j, q.2.sc k) = (s.push q).map (wreg j k) := by
  unfold Window.Regression.push
  rw [show (wreg j k s).covariance.push (q.1.sc j, q.2.sc k) = _ from wco_push hF j k s.covariance q,
    show (wreg j k s).xMoment.push (q.1.sc j, q.2.sc k).1 = _ from wvariance_push hF j s.xMoment q.1]
  cases s.covariance.push q <;> cases s.xMoment.push q.1 <;> rfl

theorem wreg_run (ops : List (Op (X F × X F))) :
    (Window.Regression.run (scOps2 j k ops) : Option (Window.Regression N (X F))) = (Window.Regression.run ops).map (wreg j k) := by
  refine runOps_hom (Option.map (wreg j k)) (fun q => (q.1.sc j, q.2.sc k)) ?_ ?_ ?_ ops
  · exact congrArg some (wreg_zero hF j k)
  · intro s q
    cases s with
    | none => rfl
    | some s => exact wreg_push hF j k s q
  · intro s
    cases s with
    | none => rfl
    | some s => exact congrArg some (wreg_zero hF j k)

theorem wco_get (s : Window.Comoment N (X F)) :
    (wco j k s).variance = s.variance.sc (j + k) ∧ (wco j k s).unbiasedVariance = s.unbiasedVariance.sc (j + k) := by
  have h3 : (wco j k s).size = s.size := Neg.ring_map_size _ _
  have h4 : (wco j k s).cosum = s.cosum.sc (j + k) := by
    unfold Window.Comoment.cosum
    rw [h3]
    show s.sumXY.sc (j + k) - s.sumX.sc j * s.sumY.sc k / _ = _
    rw [hF.mul, hF.div_left, hF.sub]
  unfold Window.Comoment.variance Window.Comoment.unbiasedVariance
  rw [h3, h4, hF.div_left, hF.div_left]
  exact ⟨hF.cond _ _ _, hF.cond _ _ _⟩

end Sc

/-- C142: covariance and regression over a window. -/
theorem C142_windowPairs_partial {N : Nat} (hF : F.Scales) (j k : ℤ) (ops : List (Op (X F × X F))) (x : X F) :
    (Window.Comoment.run (scOps2 j k ops) : Option (Window.Comoment N (X F))).map (fun s => (s.variance, s.unbiasedVariance))
      = (Window.Comoment.run ops : Option (Window.Comoment N (X F))).map (fun s => (s.variance.sc (j + k), s.unbiasedVariance.sc (j + k)))
    ∧ (Window.Regression.run (scOps2 j k ops) : Option (Window.Regression N (X F))).map (fun s => (s.slope, s.at' (x.sc j)))
      = (Window.Regression.run ops : Option (Window.Regression N (X F))).map (fun s => (s.slope.sc (k - j), (s.at' x).sc k)) := by
  constructor
  · rw [Sc.wco_run hF, Option.map_map]
    congr 1
    funext s
    have := Sc.wco_get hF j k s
    exact Prod.ext this.1 this.2
  · rw [Sc.wreg_run hF, Option.map_map]
    congr 1
    funext s
    have e : (Sc.wreg j k s).slope = s.slope.sc (k - j) := by
      show (if beq (Sc.wvariance j s.xMoment).variance (ofNat 0) then ofNat 0 else (Sc.wco j k s.covariance).variance / (Sc.wvariance j s.xMoment).variance) = _
      rw [(Sc.wvariance_get hF j _).1, (Sc.wco_get hF j k _).1, Sc.slope_get hF]; rfl
    refine Prod.ext e ?_
    have h3 : (Sc.wco j k s.covariance).size = s.covariance.size := Neg.ring_map_size _ _
    show s.covariance.sumY.sc k / ofNat (Sc.wco j k s.covariance).size - (Sc.wreg j k s).slope * (s.xMoment.super.mean.sc j - x.sc j) = _
    rw [e, h3, hF.div_left, Sc.at_get hF]; rfl

/-! ### Interim filters -/

namespace Sc
open Interim
variable {W : Nat} {σ β : Type} [Block σ w β]

theorem interim_mean (hF : F.Scales) (k : ℤ) {φ : σ → σ} {f : β → β} (h : Neg.Hom φ f) {get : σ → X F} (hg : ∀ s, get (φ s) = (get s).sc k)
    (s : Interim W σ) : (Neg.interim φ s).meanWith get = (s.meanWith get).sc k := by
  unfold Interim.meanWith
  rw [Neg.interim_empty h, show Block.size (Neg.interim φ s).active = Block.size s.active from h.size _]
  split
  · exact hg _
  · show (get (φ s.passive) * _ + get (φ s.active) * _) / _ = _
    rw [hg, hg, hF.mul_left, hF.mul_left, hF.add, hF.div_left]

theorem interim_variance (hF : F.Scales) (k : ℤ) {φ : σ → σ} {f : β → β} (h : Neg.Hom φ f) {get : σ → X F} (hg : ∀ s, get (φ s) = (get s).sc k)
    (s : Interim W σ) : (Neg.interim φ s).varianceWith get = (s.varianceWith get).sc k := by
  unfold Interim.varianceWith
  rw [Neg.interim_empty h, show Block.size (Neg.interim φ s).active = Block.size s.active from h.size _]
  split
  · exact hg _
  · split
    · exact hg _
    · show (_ * get (φ s.passive) + _ * get (φ s.active)) / _ = _
      rw [hg, hg, hF.mul_right, hF.mul_right, hF.add, hF.div_left]

theorem hom_mean (hF : F.Scales) (k : ℤ) : Neg.Hom (σ := Cumulative.Mean w (X F)) (mean k) (X.sc k) :=
  ⟨mean_init hF k, mean_push hF k, mean_clear hF k, fun _ => rfl⟩
theorem hom_variance (hF : F.Scales) (k : ℤ) : Neg.Hom (σ := Cumulative.Variance w (X F)) (variance k) (X.sc k) :=
  ⟨variance_init hF k, variance_push hF k, variance_clear hF k, fun _ => rfl⟩
theorem hom_co (hF : F.Scales) (j k : ℤ) : Neg.Hom (σ := Cumulative.Comoment w (X F)) (co j k) (fun q => (q.1.sc j, q.2.sc k)) :=
  ⟨co_init hF j k, co_push hF j k, fun _ => co_init hF j k, fun _ => rfl⟩

/-- The state of the interim regression for scaled pairs. -/
noncomputable def ireg (j k : ℤ) (s : Interim.Regression w W (X F)) : Interim.Regression w W (X F) :=
  ⟨Neg.interim (co j k) s.covariance, Neg.interim (variance j) s.xMoment, Neg.interim (mean k) s.yMoment⟩

/-- One call of an interim filter. -/
theorem interim_step {φ : σ → σ} {f : β → β} (h : Neg.Hom φ f) (s : Interim W σ) :
    (Interim.init : Interim W σ) = Neg.interim φ Interim.init ∧ (∀ x, (Neg.interim φ s).push (f x) = Neg.interim φ (s.push x))
    ∧ (Neg.interim φ s).clear = Neg.interim φ s.clear := by
  refine ⟨?_, ?_, ?_⟩
  · show (⟨Block.init, Block.init⟩ : Interim W σ) = ⟨φ Block.init, φ Block.init⟩
    rw [← h.init]
  · intro x
    unfold Interim.push
    rw [show Block.size (Neg.interim φ s).active = Block.size s.active from h.size _]
    by_cases hc : Block.size s.active ≥ BitVec.ofNat w W
    · simp only [hc, if_true]
      show (⟨Block.push (Block.clear (φ s.passive)) (f x), φ s.active⟩ : Interim W σ) = ⟨φ (Block.push (Block.clear s.passive) x), φ s.active⟩
      rw [h.clear, h.push]
    · simp only [hc, if_false]
      show (⟨Block.push (φ s.active) (f x), φ s.passive⟩ : Interim W σ) = ⟨φ (Block.push s.active x), φ s.passive⟩
      rw [h.push]
  · show (⟨Block.clear (φ s.active), Block.clear (φ s.passive)⟩ : Interim W σ) = ⟨φ (Block.clear s.active), φ (Block.clear s.passive)⟩
    rw [h.clear, h.clear]

theorem ireg_run (hF : F.Scales) (j k : ℤ) (ops : List (Op (X F × X F))) :
    (Interim.Regression.run (scOps2 j k ops) : Interim.Regression w W (X F)) = ireg j k (Interim.Regression.run ops) := by
  refine runOps_hom (ireg j k) (fun q => (q.1.sc j, q.2.sc k)) ?_ ?_ ?_ ops
  · show (⟨Interim.init, Interim.init, Interim.init⟩ : Interim.Regression w W (X F)) = ⟨Neg.interim _ Interim.init, Neg.interim _ Interim.init, Neg.interim _ Interim.init⟩
    rw [← (interim_step (W := W) (hom_co (w := w) hF j k) Interim.init).1, ← (interim_step (W := W) (hom_variance (w := w) hF j) Interim.init).1,
      ← (interim_step (W := W) (hom_mean (w := w) hF k) Interim.init).1]
  · intro s q
    show (⟨(Neg.interim (co j k) s.covariance).push (q.1.sc j, q.2.sc k), (Neg.interim (variance j) s.xMoment).push (q.1.sc j),
      (Neg.interim (mean k) s.yMoment).push (q.2.sc k)⟩ : Interim.Regression w W (X F)) = ⟨_, _, _⟩
    rw [(interim_step (hom_variance hF j) s.xMoment).2.1, (interim_step (hom_mean hF k) s.yMoment).2.1]
    have := (interim_step (hom_co hF j k) s.covariance).2.1 q
    beta_reduce at this
    rw [this]; rfl
  · intro s
    show (⟨(Neg.interim (co j k) s.covariance).clear, (Neg.interim (variance j) s.xMoment).clear, Neg.interim (mean k) s.yMoment⟩ :
      Interim.Regression w W (X F)) = ⟨_, _, _⟩
    rw [(interim_step (hom_co hF j k) s.covariance).2.2, (interim_step (hom_variance hF j) s.xMoment).2.2]
    rfl

end Sc

open Interim in
/-- C142: the interim filters. -/
theorem C142_interim_partial {W : Nat} (hF : F.Scales) (j k : ℤ) (ops : List (Op (X F))) (ops2 : List (Op (X F × X F))) (x : X F) :
    IMean.mean (Interim.run (scOps k ops) : IMean w W (X F)) = (IMean.mean (Interim.run ops : IMean w W (X F))).sc k
    ∧ IVariance.variance (Interim.run (scOps k ops) : IVariance w W (X F)) = (IVariance.variance (Interim.run ops : IVariance w W (X F))).sc (k + k)
    ∧ IComoment.variance (Interim.run (scOps2 j k ops2) : IComoment w W (X F)) = (IComoment.variance (Interim.run ops2 : IComoment w W (X F))).sc (j + k)
    ∧ (Interim.Regression.run (scOps2 j k ops2) : Interim.Regression w W (X F)).slope
      = ((Interim.Regression.run ops2 : Interim.Regression w W (X F)).slope).sc (k - j)
    ∧ (Interim.Regression.run (scOps2 j k ops2) : Interim.Regression w W (X F)).at' (x.sc j)
      = ((Interim.Regression.run ops2 : Interim.Regression w W (X F)).at' x).sc k := by
  have e : ∀ s : Interim.Regression w W (X F), (Sc.ireg j k s).slope = s.slope.sc (k - j) := by
    intro s
    show (if beq (IVariance.variance (Neg.interim (Sc.variance j) s.xMoment)) (ofNat 0) then ofNat 0
      else IComoment.variance (Neg.interim (Sc.co j k) s.covariance) / IVariance.variance (Neg.interim (Sc.variance j) s.xMoment)) = _
    rw [show IVariance.variance (Neg.interim (Sc.variance j) s.xMoment) = (IVariance.variance s.xMoment).sc (j + j) from
        Sc.interim_variance hF (j + j) (Sc.hom_variance hF j) (Sc.variance_get hF j) _,
      show IComoment.variance (Neg.interim (Sc.co j k) s.covariance) = (IComoment.variance s.covariance).sc (j + k) from
        Sc.interim_variance hF (j + k) (Sc.hom_co hF j k) (fun s => (Sc.co_get hF j k s).1) _, Sc.slope_get hF]
    rfl
  refine ⟨?_, ?_, ?_, ?_, ?_⟩
  · rw [scOps, Neg.interim_run (Sc.hom_mean hF k)]
    exact Sc.interim_mean hF k (Sc.hom_mean hF k) (fun _ => rfl) _
  · rw [scOps, Neg.interim_run (Sc.hom_variance hF k)]
    exact Sc.interim_variance hF (k + k) (Sc.hom_variance hF k) (Sc.variance_get hF k) _
  · rw [scOps2, Neg.interim_run (Sc.hom_co hF j k)]
    exact Sc.interim_variance hF (j + k) (Sc.hom_co hF j k) (fun s => (Sc.co_get hF j k s).1) _
  · rw [Sc.ireg_run hF, e]
  · rw [Sc.ireg_run hF]
    generalize (Interim.Regression.run ops2 : Interim.Regression w W (X F)) = s
    show IMean.mean (Neg.interim (Sc.mean k) s.yMoment) - (Sc.ireg j k s).slope * (IVariance.mean (Neg.interim (Sc.variance j) s.xMoment) - x.sc j) = _
    rw [e, show IMean.mean (Neg.interim (Sc.mean k) s.yMoment) = (IMean.mean s.yMoment).sc k from
        Sc.interim_mean hF k (Sc.hom_mean hF k) (fun _ => rfl) _,
      show IVariance.mean (Neg.interim (Sc.variance j) s.xMoment) = (IVariance.mean s.xMoment).sc j from
        Sc.interim_mean hF j (Sc.hom_variance hF j) (fun _ => rfl) _, Sc.at_get hF]
    rfl

open Interim in
/-- C142: interim skewness and kurtosis do not change if the sums of both blocks are on the same side of the cut-off before and
after scaling. -/
theorem C142_interimShape_partial {W : Nat} (hF : F.Scales) (k : ℤ) (ops : List (Op (X F))) :
    ((∀ b : Bool, let c := fun s : ISkewness w W (X F) => if b then s.active else s.passive
        lt ((c (Interim.run ops)).sumSkewness.sc (k + k + k)) eps = lt (c (Interim.run ops)).sumSkewness eps) →
      ISkewness.skewness (Interim.run (scOps k ops) : ISkewness w W (X F)) = ISkewness.skewness (Interim.run ops : ISkewness w W (X F)))
    ∧ ((∀ b : Bool, let c := fun s : IKurtosis w W (X F) => if b then s.active else s.passive
        lt ((c (Interim.run ops)).sumKurtosis.sc (k + k + k + k)) eps = lt (c (Interim.run ops)).sumKurtosis eps) →
      IKurtosis.kurtosis (Interim.run (scOps k ops) : IKurtosis w W (X F)) = IKurtosis.kurtosis (Interim.run ops : IKurtosis w W (X F))) := by
  have hs : Neg.Hom (σ := Cumulative.Skewness w (X F)) (Sc.skewness k) (X.sc k) :=
    ⟨Sc.skewness_init hF k, Sc.skewness_push hF k, Sc.skewness_clear hF k, fun _ => rfl⟩
  have hk : Neg.Hom (σ := Cumulative.Kurtosis w (X F)) (Sc.kurtosis k) (X.sc k) :=
    ⟨Sc.kurtosis_init hF k, Sc.kurtosis_push hF k, Sc.kurtosis_clear hF k, fun _ => rfl⟩
  constructor
  · intro h
    rw [scOps, Neg.interim_run hs]
    generalize (Interim.run ops : ISkewness w W (X F)) = s at h ⊢
    have ha := Sc.skewness_get hF k s.active (h true)
    have hp := Sc.skewness_get hF k s.passive (h false)
    unfold ISkewness.skewness Interim.blendWith
    rw [Neg.interim_empty hs, show Block.size (Neg.interim (Sc.skewness k) s).active = Block.size s.active from rfl,
      show (Neg.interim (Sc.skewness k) s).active = Sc.skewness k s.active from rfl,
      show (Neg.interim (Sc.skewness k) s).passive = Sc.skewness k s.passive from rfl, ha, hp]
  · intro h
    rw [scOps, Neg.interim_run hk]
    generalize (Interim.run ops : IKurtosis w W (X F)) = s at h ⊢
    have ha := Sc.kurtosis_get hF k s.active (h true)
    have hp := Sc.kurtosis_get hF k s.passive (h false)
    unfold IKurtosis.kurtosis Interim.blendWith
    rw [Neg.interim_empty hk, show Block.size (Neg.interim (Sc.kurtosis k) s).active = Block.size s.active from rfl,
      show (Neg.interim (Sc.kurtosis k) s).active = Sc.kurtosis k s.active from rfl,
      show (Neg.interim (Sc.kurtosis k) s).passive = Sc.kurtosis k s.passive from rfl, ha, hp]

/-! ### What does not hold -/

open Cumulative in
/-- C142: all values of the filters follow the multiplication of the data by powers of two: mean (first power), variance (second
power), skewness, kurtosis and correlation (unchanged). -/
def C142_Statement (F : Fmt) (w : Nat) : Prop :=
  (∀ k (ops : List (Op (X F))),
    (Mean.run (scOps k ops) : Mean w (X F)).getMean = ((Mean.run ops : Mean w (X F)).getMean).sc k
    ∧ (Variance.run (scOps k ops) : Variance w (X F)).variance = ((Variance.run ops : Variance w (X F)).variance).sc (k + k)
    ∧ (Skewness.run (scOps k ops) : Skewness w (X F)).skewness = (Skewness.run ops : Skewness w (X F)).skewness
    ∧ (Kurtosis.run (scOps k ops) : Kurtosis w (X F)).kurtosis = (Kurtosis.run ops : Kurtosis w (X F)).kurtosis)
  ∧ ∀ j k (ops : List (Op (X F × X F))),
    (Correlation.run (scOps2 j k ops) : Correlation w (X F)).value = (Correlation.run ops : Correlation w (X F)).value

/-- Powers of two and their negatives are numbers of the format. -/
theorem unbounded_pow {p : Nat} (hp : 1 ≤ p) (k : ℤ) :
    (Fmt.unbounded p).rnd (2 ^ k) = 2 ^ k ∧ (Fmt.unbounded p).rnd (-2 ^ k) = -2 ^ k := by
  have e : (1 : ℝ) / 2 ^ ((0 : ℤ) + 1 - p) = ((2 ^ (p - 1) : ℤ) : ℝ) := by
    rw [show ((0 : ℤ) + 1 - p) = -((p - 1 : ℕ) : ℤ) by omega, zpow_neg, zpow_natCast]; push_cast; field_simp
  have e' : (2 : ℝ) ^ (p - 1) * 2 ^ ((0 : ℤ) + 1 - p) = 1 := by
    rw [show ((0 : ℤ) + 1 - p) = -((p - 1 : ℕ) : ℤ) by omega, zpow_neg, zpow_natCast]; field_simp
  have h1 : (Fmt.unbounded p).rnd 1 = 1 := by
    show (nearestEven (1 / 2 ^ (Int.log 2 |(1 : ℝ)| + 1 - p)) : ℝ) * 2 ^ (Int.log 2 |(1 : ℝ)| + 1 - p) = 1
    rw [abs_one, Int.log_one_right, e, nearestEven_intCast]; push_cast; exact e'
  have h2 : (Fmt.unbounded p).rnd (-1) = -1 := by
    show (nearestEven (-1 / 2 ^ (Int.log 2 |(-1 : ℝ)| + 1 - p)) : ℝ) * 2 ^ (Int.log 2 |(-1 : ℝ)| + 1 - p) = -1
    rw [abs_neg, abs_one, Int.log_one_right, neg_div, nearestEven_neg, e, nearestEven_intCast]; push_cast; rw [neg_mul, neg_inj]; exact e'
  constructor
  · have := (unbounded_scales p).rnd_zpow k 1
    rwa [h1, mul_one] at this
  · have := (unbounded_scales p).rnd_zpow k (-1)
    rwa [h2, mul_neg, mul_one] at this

section Example
open Cumulative
variable {p : Nat}

/-- The pairs (0, 0), (1, -1). -/
noncomputable def descending : List (Op (X (Fmt.unbounded p) × X (Fmt.unbounded p))) := [.push (X.fin 0, X.fin 0), .push (X.fin 1, X.fin (-1))]

/-- The state after (0, 0), (1, -1). -/
theorem descending_run (hp : 1 ≤ p) : (Correlation.run descending : Correlation 64 (X (Fmt.unbounded p)))
    = ⟨⟨⟨X.fin (1 / 2), 2⟩, ⟨X.fin (-1 / 2), 2⟩, X.fin (-1 / 2)⟩, ⟨⟨X.fin (1 / 2), 2⟩, X.fin (1 / 2)⟩, ⟨⟨X.fin (-1 / 2), 2⟩, X.fin (1 / 2)⟩⟩ := by
  have hS := unbounded_scales p
  have r0 : (X.round 0 : X (Fmt.unbounded p)) = X.fin 0 := by rw [hS.round_eq, hS.rnd_zero]
  have r1 : (X.round 1 : X (Fmt.unbounded p)) = X.fin 1 := by rw [hS.round_eq]; simpa using (unbounded_pow hp 0).1
  have r1' : (X.round (-1) : X (Fmt.unbounded p)) = X.fin (-1) := by rw [hS.round_eq]; simpa using (unbounded_pow hp 0).2
  have r2 : (X.round 2 : X (Fmt.unbounded p)) = X.fin 2 := by rw [hS.round_eq]; simpa using (unbounded_pow hp 1).1
  have rh : (X.round (1 / 2) : X (Fmt.unbounded p)) = X.fin (1 / 2) := by
    rw [hS.round_eq]; have := (unbounded_pow hp (-1)).1; rw [zpow_neg_one] at this; rw [one_div, this]
  have rh' : (X.round (-1 / 2) : X (Fmt.unbounded p)) = X.fin (-1 / 2) := by
    rw [hS.round_eq]; have := (unbounded_pow hp (-1)).2; rw [zpow_neg_one] at this; rw [show (-1 / 2 : ℝ) = -2⁻¹ by norm_num, this]
  have m1 : (Mean.init : Mean 64 (X (Fmt.unbounded p))).push (X.fin 0) = ⟨X.fin 0, 1⟩ := by
    show (⟨ofNat 0 + (X.fin 0 - ofNat 0) / ofNat 1, 1⟩ : Mean 64 (X (Fmt.unbounded p))) = _
    norm_num [X.ofNat_eq, X.sub_fin, X.add_fin, X.div_fin, r0, r1]
  have m2 : (⟨X.fin 0, 1⟩ : Mean 64 (X (Fmt.unbounded p))).push (X.fin 1) = ⟨X.fin (1 / 2), 2⟩ := by
    show (⟨X.fin 0 + (X.fin 1 - X.fin 0) / ofNat 2, 2⟩ : Mean 64 (X (Fmt.unbounded p))) = _
    rw [X.ofNat_eq, Nat.cast_ofNat, r2, X.sub_fin, sub_zero, r1, X.div_fin_of_ne _ (by norm_num), rh, X.add_fin, zero_add, rh]
  have m3 : (⟨X.fin 0, 1⟩ : Mean 64 (X (Fmt.unbounded p))).push (X.fin (-1)) = ⟨X.fin (-1 / 2), 2⟩ := by
    show (⟨X.fin 0 + (X.fin (-1) - X.fin 0) / ofNat 2, 2⟩ : Mean 64 (X (Fmt.unbounded p))) = _
    rw [X.ofNat_eq, Nat.cast_ofNat, r2, X.sub_fin, sub_zero, r1', X.div_fin_of_ne _ (by norm_num), rh', X.add_fin, zero_add, rh']
  have v1 : (Variance.init : Variance 64 (X (Fmt.unbounded p))).push (X.fin 0) = ⟨⟨X.fin 0, 1⟩, X.fin 0⟩ := by
    show (⟨Mean.init.push (X.fin 0), ofNat 0 + (X.fin 0 - ofNat 0) * (X.fin 0 - (Mean.push (Mean.init : Mean 64 (X (Fmt.unbounded p))) (X.fin 0)).mean)⟩ :
      Variance 64 (X (Fmt.unbounded p))) = _
    rw [m1]
    norm_num [X.ofNat_eq, X.sub_fin, X.add_fin, X.mul_fin, r0]
  have v2 : (⟨⟨X.fin 0, 1⟩, X.fin 0⟩ : Variance 64 (X (Fmt.unbounded p))).push (X.fin 1) = ⟨⟨X.fin (1 / 2), 2⟩, X.fin (1 / 2)⟩ := by
    show (⟨Mean.push ⟨X.fin 0, 1⟩ (X.fin 1), X.fin 0 + (X.fin 1 - X.fin 0) * (X.fin 1 - (Mean.push (⟨X.fin 0, 1⟩ : Mean 64 (X (Fmt.unbounded p))) (X.fin 1)).mean)⟩ :
      Variance 64 (X (Fmt.unbounded p))) = _
    rw [m2]
    show (⟨_, X.fin 0 + (X.fin 1 - X.fin 0) * (X.fin 1 - X.fin (1 / 2))⟩ : Variance 64 (X (Fmt.unbounded p))) = _
    rw [X.sub_fin, sub_zero, r1, X.sub_fin, show (1 : ℝ) - 1 / 2 = 1 / 2 by norm_num, rh, X.mul_fin, one_mul, rh, X.add_fin, zero_add, rh]
  have v3 : (⟨⟨X.fin 0, 1⟩, X.fin 0⟩ : Variance 64 (X (Fmt.unbounded p))).push (X.fin (-1)) = ⟨⟨X.fin (-1 / 2), 2⟩, X.fin (1 / 2)⟩ := by
    show (⟨Mean.push ⟨X.fin 0, 1⟩ (X.fin (-1)), X.fin 0 + (X.fin (-1) - X.fin 0) * (X.fin (-1) - (Mean.push (⟨X.fin 0, 1⟩ : Mean 64 (X (Fmt.unbounded p))) (X.fin (-1))).mean)⟩ :
      Variance 64 (X (Fmt.unbounded p))) = _
    rw [m3]
    show (⟨_, X.fin 0 + (X.fin (-1) - X.fin 0) * (X.fin (-1) - X.fin (-1 / 2))⟩ : Variance 64 (X (Fmt.unbounded p))) = _
    rw [X.sub_fin, sub_zero, r1', X.sub_fin, show (-1 : ℝ) - -1 / 2 = -1 / 2 by norm_num, rh', X.mul_fin, show (-1 : ℝ) * (-1 / 2) = 1 / 2 by norm_num, rh,
      X.add_fin, zero_add, rh]
  show (⟨⟨(Mean.init.push (X.fin 0)).push (X.fin 1), (Mean.init.push (X.fin 0)).push (X.fin (-1)),
      (ofNat 0 + (X.fin 0 - (Mean.push (Mean.init : Mean 64 (X (Fmt.unbounded p))) (X.fin 0)).mean) * (X.fin 0 - ofNat 0))
        + (X.fin 1 - (Mean.push (Mean.push (Mean.init : Mean 64 (X (Fmt.unbounded p))) (X.fin 0)) (X.fin 1)).mean)
          * (X.fin (-1) - (Mean.push (Mean.init : Mean 64 (X (Fmt.unbounded p))) (X.fin 0)).mean)⟩,
    (Variance.init.push (X.fin 0)).push (X.fin 1), (Variance.init.push (X.fin 0)).push (X.fin (-1))⟩ : Correlation 64 (X (Fmt.unbounded p))) = _
  rw [v1, v2, v3, m1, m2, m3]
  show (⟨⟨_, _, (ofNat 0 + (X.fin 0 - X.fin 0) * (X.fin 0 - ofNat 0)) + (X.fin 1 - X.fin (1 / 2)) * (X.fin (-1) - X.fin 0)⟩, _, _⟩ :
    Correlation 64 (X (Fmt.unbounded p))) = _
  rw [X.ofNat_eq, Nat.cast_zero, r0, X.sub_fin, sub_zero, r0, X.mul_fin, zero_mul, r0, X.add_fin, zero_add, r0, X.sub_fin,
    show (1 : ℝ) - 1 / 2 = 1 / 2 by norm_num, rh, X.sub_fin, sub_zero, r1', X.mul_fin, show (1 / 2 : ℝ) * -1 = -1 / 2 by norm_num, rh', X.add_fin, zero_add, rh']

/-- The product of the variances of (0, 0), (1, -1), and the correlation. -/
theorem descending_value (hp : 1 ≤ p) :
    (Correlation.run descending : Correlation 64 (X (Fmt.unbounded p))).x.variance * (Correlation.run descending : Correlation 64 (X (Fmt.unbounded p))).y.variance
      = X.fin (2 ^ (-4 : ℤ))
    ∧ (5 ≤ p → (Correlation.run descending : Correlation 64 (X (Fmt.unbounded p))).value = X.fin (-1)) := by
  have hS := unbounded_scales p
  have r : ∀ k : ℤ, (X.round (2 ^ k) : X (Fmt.unbounded p)) = X.fin (2 ^ k) := fun k => by rw [hS.round_eq, (unbounded_pow hp k).1]
  have r' : ∀ k : ℤ, (X.round (-2 ^ k) : X (Fmt.unbounded p)) = X.fin (-2 ^ k) := fun k => by rw [hS.round_eq, (unbounded_pow hp k).2]
  have r2 : (ofNat 2 : X (Fmt.unbounded p)) = X.fin 2 := by rw [X.ofNat_eq, Nat.cast_ofNat]; simpa using r 1
  have q : (X.fin (1 / 2) / ofNat 2 : X (Fmt.unbounded p)) = X.fin (2 ^ (-2 : ℤ)) := by
    rw [r2, X.div_fin_of_ne _ (by norm_num), show (1 / 2 : ℝ) / 2 = 2 ^ (-2 : ℤ) by norm_num [zpow_neg], r]
  have q' : (X.fin (-1 / 2) / ofNat 2 : X (Fmt.unbounded p)) = X.fin (-2 ^ (-2 : ℤ)) := by
    rw [r2, X.div_fin_of_ne _ (by norm_num), show (-1 / 2 : ℝ) / 2 = -2 ^ (-2 : ℤ) by norm_num [zpow_neg], r']
  have e1 : (Correlation.run descending : Correlation 64 (X (Fmt.unbounded p))).x.variance * (Correlation.run descending : Correlation 64 (X (Fmt.unbounded p))).y.variance
      = X.fin (2 ^ (-4 : ℤ)) := by
    rw [descending_run hp]
    show (X.fin (1 / 2) / ofNat 2) * (X.fin (1 / 2) / ofNat 2) = _
    rw [q, X.mul_fin, ← zpow_add₀ (by norm_num), r]; norm_num
  refine ⟨e1, fun h5 => ?_⟩
  have e2 : (Correlation.run descending : Correlation 64 (X (Fmt.unbounded p))).value
      = if lt ((Correlation.run descending : Correlation 64 (X (Fmt.unbounded p))).x.variance
          * (Correlation.run descending : Correlation 64 (X (Fmt.unbounded p))).y.variance) eps then ofNat 1
        else (Correlation.run descending : Correlation 64 (X (Fmt.unbounded p))).co.variance
          / Scalar.sqrt ((Correlation.run descending : Correlation 64 (X (Fmt.unbounded p))).x.variance
          * (Correlation.run descending : Correlation 64 (X (Fmt.unbounded p))).y.variance) := rfl
  rw [e2, e1, X.eps_eq, X.lt_fin, if_neg, descending_run hp]
  · show (if (2 : SizeT 64) > 0 then X.fin (-1 / 2) / ofNat 2 else ofNat 0) / Scalar.sqrt (X.fin (2 ^ (-4 : ℤ))) = _
    rw [if_pos (by decide), q', X.sqrt_fin_of_nonneg (by positivity), show Real.sqrt ((2 : ℝ) ^ (-4 : ℤ)) = 2 ^ (-2 : ℤ) by
      rw [show (2 : ℝ) ^ (-4 : ℤ) = (2 ^ (-2 : ℤ)) ^ 2 by norm_num [zpow_neg]]; exact Real.sqrt_sq (by positivity), r,
      X.div_fin_of_ne _ (by positivity), show (-2 ^ (-2 : ℤ) : ℝ) / 2 ^ (-2 : ℤ) = -2 ^ (0 : ℤ) by norm_num [zpow_neg], r']
    norm_num
  · rw [decide_eq_true_eq, not_lt]
    show (2 : ℝ) ^ (1 - (p : ℤ)) ≤ 2 ^ (-4 : ℤ)
    exact zpow_le_zpow_right₀ (by norm_num) (by omega)

/-- C142 is violated, even without overflow and underflow, by the cut-off in the correlation: for p digits, p ≥ 5, the pairs (0, 0),
(1, -1) have correlation -1; multiplied by `2^-p` they have correlation +1. -/
theorem C142_violated (h5 : 5 ≤ p) : ¬ C142_Statement (Fmt.unbounded p) 64 := by
  rintro ⟨-, h⟩
  have hp : 1 ≤ p := by omega
  have hS := unbounded_scales p
  have h1 := h (-p) (-p) descending
  rw [(descending_value hp).2 h5, Sc.cor_run hS] at h1
  generalize hs : (Correlation.run descending : Correlation 64 (X (Fmt.unbounded p))) = s at h1
  have e : (Sc.cor (-p) (-p) s).value = if lt ((Sc.variance (-p) s.x).variance * (Sc.variance (-p) s.y).variance) eps then ofNat 1
    else (Sc.co (-p) (-p) s.co).variance / Scalar.sqrt ((Sc.variance (-p) s.x).variance * (Sc.variance (-p) s.y).variance) := rfl
  rw [e, Sc.variance_get hS, Sc.variance_get hS, hS.mul, ← hs, (descending_value hp).1] at h1
  rw [X.eps_eq, X.sc, X.lt_fin, if_pos, X.ofNat_eq, Nat.cast_one, hS.round_eq] at h1
  · have := (unbounded_pow hp 0).1
    rw [zpow_zero] at this
    rw [this, X.fin_inj] at h1
    norm_num at h1
  · rw [decide_eq_true_eq]
    show (2 : ℝ) ^ _ * 2 ^ (-4 : ℤ) < 2 ^ (1 - (p : ℤ))
    rw [← zpow_add₀ (by norm_num)]
    exact zpow_lt_zpow_right₀ (by norm_num) (by omega)

end Example

open Cumulative in
/-- In binary64 already the mean violates the law when it is not a number of the type: the mean of 0 and the smallest positive
number is computed as 0, the mean of the doubled data is the smallest positive number. -/
theorem C142_underflow_violated : ¬ ∀ (k : ℤ) (xs : List ℝ), (∀ x ∈ xs, IsRep 53 (-1074) x ∧ IsRep 53 (-1074) (2 ^ k * x)) →
    (Mean.run (scOps k (xs.map fun x => .push (X.fin x))) : Mean 64 (X binary64)).getMean
      = ((Mean.run (xs.map fun x => .push (X.fin x)) : Mean 64 (X binary64)).getMean).sc k := by
  intro h
  have hz : (X.round 0 : X binary64) = X.fin 0 := round64 0 0 (by norm_num) (by norm_num) (by norm_num) (by norm_num)
  have hr : ∀ k : ℤ, -1074 ≤ k → k ≤ 970 → (X.round (2 ^ k) : X binary64) = X.fin (2 ^ k) :=
    fun k h1 h2 => round64 1 k (by simp) (by norm_num) h1 h2
  have h2 : (ofNat 2 : X binary64) = X.fin 2 := by rw [ofNat64 (by norm_num)]; norm_num
  have ht : (X.round (2 ^ (-1075 : ℤ)) : X binary64) = X.fin 0 := by
    have : binary64.rnd (2 ^ (-1075 : ℤ)) = 0 := by
      show (nearestEven (2 ^ (-1075 : ℤ) / 2 ^ lastDigit 53 (-1074) (2 ^ (-1075 : ℤ))) : ℝ) * _ = 0
      have hd : lastDigit 53 (-1074) (2 ^ (-1075 : ℤ)) = -1074 := by
        unfold lastDigit
        have := Int.log_zpow (R := ℝ) (b := 2) (by norm_num) (-1075)
        rw [Nat.cast_ofNat] at this
        rw [abs_of_pos (by positivity), this]
        norm_num
      have he : (2 : ℝ) ^ (-1075 : ℤ) / 2 ^ (-1074 : ℤ) = ((0 : ℤ) : ℝ) + 1 / 2 := by
        rw [← zpow_sub₀ (by norm_num)]; norm_num
      rw [hd, he, nearestEven_tie]; simp
    unfold X.round
    rw [this, if_pos]
    rw [binary64_fits, abs_zero]; positivity
  have m : ∀ x : ℝ, (Mean.run [.push (X.fin 0), .push (X.fin x)] : Mean 64 (X binary64)).getMean = X.fin 0 + (X.fin x - X.fin 0) / ofNat 2 := by
    intro x
    show (ofNat 0 + (X.fin 0 - ofNat 0) / ofNat 1) + (X.fin x - (ofNat 0 + (X.fin 0 - ofNat 0) / ofNat 1)) / ofNat 2 = _
    have : (ofNat 0 + (X.fin 0 - ofNat 0) / ofNat 1 : X binary64) = X.fin 0 := by
      rw [ofNat64 (by norm_num), ofNat64 (by norm_num), Nat.cast_zero, Nat.cast_one, X.sub_fin, sub_zero, hz, X.div_fin_of_ne _ (by norm_num), zero_div, hz,
        X.add_fin, add_zero, hz]
    rw [this]
  have h1 := h 1 [0, 2 ^ (-1074 : ℤ)] ?_
  · have e : scOps 1 ([0, 2 ^ (-1074 : ℤ)].map fun x => .push (X.fin x)) = ([.push (X.fin 0), .push (X.fin (2 ^ (-1073 : ℤ)))] : List (Op (X binary64))) := by
      have : (2 : ℝ) ^ (1 : ℤ) * 2 ^ (-1074 : ℤ) = 2 ^ (-1073 : ℤ) := by rw [← zpow_add₀ (by norm_num)]; norm_num
      simp only [scOps, List.map_cons, List.map_nil, Op.map, X.sc, this, mul_zero]
    rw [e, m] at h1
    have e3 : (Mean.run (([0, 2 ^ (-1074 : ℤ)] : List ℝ).map fun x => .push (X.fin x)) : Mean 64 (X binary64)).getMean
        = X.fin 0 + (X.fin (2 ^ (-1074 : ℤ)) - X.fin 0) / ofNat 2 := m _
    rw [e3, h2, X.sub_fin, sub_zero, hr _ (by norm_num) (by norm_num), X.div_fin_of_ne _ (by norm_num),
      show (2 : ℝ) ^ (-1073 : ℤ) / 2 = 2 ^ (-1074 : ℤ) by rw [show (-1073 : ℤ) = -1074 + 1 by norm_num, zpow_add_one₀ (by norm_num)]; field_simp,
      hr _ (by norm_num) (by norm_num), X.add_fin, zero_add, hr _ (by norm_num) (by norm_num), X.sub_fin, sub_zero, hr _ (by norm_num) (by norm_num),
      X.div_fin_of_ne _ (by norm_num),
      show (2 : ℝ) ^ (-1074 : ℤ) / 2 = 2 ^ (-1075 : ℤ) by rw [show (-1074 : ℤ) = -1075 + 1 by norm_num, zpow_add_one₀ (by norm_num)]; field_simp,
      ht, X.add_fin, zero_add, hz, X.sc, X.fin_inj, mul_zero] at h1
    exact absurd h1 (by positivity)
  · intro x hx
    have : x = 0 ∨ x = 2 ^ (-1074 : ℤ) := by simpa using hx
    rcases this with rfl | rfl
    · rw [mul_zero]; exact ⟨isRep_zero _ _, isRep_zero _ _⟩
    · refine ⟨isRep_zpow (by norm_num) (by norm_num), ?_⟩
      rw [← zpow_add₀ (by norm_num)]; exact isRep_zpow (by norm_num) (by norm_num)

/-- Non-vacuity: with p digits, the mean of the doubled data 2, 6 is twice the mean of 1, 3. -/
example (p : Nat) : (Cumulative.Mean.run [.push (X.fin (2 ^ (1 : ℤ) * 1)), .push (X.fin (2 ^ (1 : ℤ) * 3))] : Cumulative.Mean 64 (X (Fmt.unbounded p))).getMean
    = ((Cumulative.Mean.run [.push (X.fin 1), .push (X.fin 3)] : Cumulative.Mean 64 (X (Fmt.unbounded p))).getMean).sc 1 :=
  (C142_cumulative_partial (w := 64) (unbounded_scales p) 1 [.push (X.fin 1), .push (X.fin 3)]).1

end Verif.Props
