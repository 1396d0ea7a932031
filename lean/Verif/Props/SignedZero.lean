import Verif.Proofs.SignedZero
import Verif.Proofs.Nearest
import Verif.Proofs.Double
/-
C168: the sign of zeros does not matter.

`Z F` is the arithmetic with the two zeros of IEEE 754, `X F` the arithmetic with one zero used for all other properties.
-/
namespace Verif.Props
open Verif Scalar

variable {F : Fmt} {w : Nat}

/-- The calls without the signs of zeros. -/
noncomputable def vals (ops : List (Op (Z F))) : List (Op (X F)) := ops.map (Op.map Z.val)
/-- The calls without the signs of zeros. -/
noncomputable def vals2 (ops : List (Op (Z F × Z F))) : List (Op (X F × X F)) := ops.map (Op.map (Prod.map Z.val Z.val))

/-- C168: the cumulative moments. -/
theorem C168_cumulative (hF : F.Signs) (ops : List (Op (Z F))) :
    let s : Cumulative.Kurtosis w (Z F) := Cumulative.Kurtosis.run ops
    let t : Cumulative.Kurtosis w (X F) := Cumulative.Kurtosis.run (vals ops)
    s.size = t.size ∧ s.getMean.val = t.getMean ∧ s.unbiasedMean.val = t.unbiasedMean
      ∧ s.variance.val = t.variance ∧ s.unbiasedVariance.val = t.unbiasedVariance
      ∧ s.skewness.val = t.skewness ∧ s.unbiasedSkewness.val = t.unbiasedSkewness
      ∧ s.kurtosis.val = t.kurtosis ∧ s.unbiasedKurtosis.val = t.unbiasedKurtosis := by
  intro s t
  have H := Z.hom hF
  have e : t = s.map Z.val := (Cumulative.Kurtosis.map_run H ops).symm
  rw [e]
  exact ⟨rfl, rfl, Cumulative.Mean.map_unbiasedMean H _, Cumulative.Variance.map_variance H _,
    Cumulative.Variance.map_unbiasedVariance H _, Cumulative.Skewness.map_skewness H _,
    Cumulative.Skewness.map_unbiasedSkewness H _, Cumulative.Kurtosis.map_kurtosis H _,
    Cumulative.Kurtosis.map_unbiasedKurtosis H _⟩

/-- C168: covariance, correlation, regression and trend. -/
theorem C168_pairs (hF : F.Signs) (ops : List (Op (Z F × Z F))) (ops' : List (Op (Z F))) (x : Z F) :
    ((Cumulative.Comoment.run ops : Cumulative.Comoment w (Z F)).variance.val
        = (Cumulative.Comoment.run (vals2 ops) : Cumulative.Comoment w (X F)).variance
      ∧ (Cumulative.Comoment.run ops : Cumulative.Comoment w (Z F)).unbiasedVariance.val
        = (Cumulative.Comoment.run (vals2 ops) : Cumulative.Comoment w (X F)).unbiasedVariance)
    ∧ (Cumulative.Correlation.run ops : Cumulative.Correlation w (Z F)).value.val
        = (Cumulative.Correlation.run (vals2 ops) : Cumulative.Correlation w (X F)).value
    ∧ ((Cumulative.Regression.run ops : Cumulative.Regression w (Z F)).slope.val
        = (Cumulative.Regression.run (vals2 ops) : Cumulative.Regression w (X F)).slope
      ∧ ((Cumulative.Regression.run ops : Cumulative.Regression w (Z F)).at' x).val
        = (Cumulative.Regression.run (vals2 ops) : Cumulative.Regression w (X F)).at' x.val)
    ∧ (Cumulative.Trend.run ops' : Cumulative.Trend w (Z F)).value.val
        = (Cumulative.Trend.run (vals ops') : Cumulative.Trend w (X F)).value := by
  have H := Z.hom hF
  refine ⟨?_, ?_, ?_, ?_⟩
  · rw [vals2, ← Cumulative.Comoment.map_run H ops]
    exact ⟨Cumulative.Comoment.map_variance H _, Cumulative.Comoment.map_unbiasedVariance H _⟩
  · rw [vals2, ← Cumulative.Correlation.map_run H ops]
    exact Cumulative.Correlation.map_value H _
  · rw [vals2, ← Cumulative.Regression.map_run H ops]
    exact ⟨Cumulative.Regression.map_slope H _, Cumulative.Regression.map_at H _ x⟩
  · rw [vals, ← Cumulative.Trend.map_run H ops']
    exact Cumulative.Trend.map_value H _

/-- C168: the decay filters; the factors may be given with either zero. -/
theorem C168_decay (hF : F.Signs) (f g h k : Z F) (ops : List (Op (Z F))) :
    let s := Decay.Kurtosis.run f g h k ops
    let t := Decay.Kurtosis.run f.val g.val h.val k.val (vals ops)
    s.mean.val = t.mean ∧ s.variance.val = t.variance ∧ s.skewness.val = t.skewness ∧ s.kurtosis.val = t.kurtosis := by
  intro s t
  have H := Z.hom hF
  have e : t = s.map Z.val := (Decay.Kurtosis.map_run H f g h k ops).symm
  rw [e]
  exact ⟨Decay.Mean.map_mean H _, Decay.Variance.map_variance H _, Decay.Skewness.map_skewness H _, Decay.Kurtosis.map_kurtosis H _⟩

/-- C168: the moving mean and variance. -/
theorem C168_window {N : Nat} (hF : F.Signs) (ops : List (Op (Z F))) :
    (Window.Variance.run ops : Option (Window.Variance N (Z F))).map (fun s => (s.getMean.val, s.variance.val, s.unbiasedVariance.val))
      = (Window.Variance.run (vals ops) : Option (Window.Variance N (X F))).map
          (fun s => (s.getMean, s.variance, s.unbiasedVariance)) := by
  have H := Z.hom hF
  rw [vals, ← Window.Variance.map_run H ops, Option.map_map]
  congr 1
  funext s
  simp only [Function.comp_apply, ← Window.Variance.map_variance H, ← Window.Variance.map_unbiasedVariance H]
  rfl

/-- C168: the moving covariance and regression. -/
theorem C168_window_pairs {N : Nat} (hF : F.Signs) (ops : List (Op (Z F × Z F))) (x : Z F) :
    ((Window.Comoment.run ops : Option (Window.Comoment N (Z F))).map (fun s => (s.variance.val, s.unbiasedVariance.val))
      = (Window.Comoment.run (vals2 ops) : Option (Window.Comoment N (X F))).map (fun s => (s.variance, s.unbiasedVariance)))
    ∧ (Window.Regression.run ops : Option (Window.Regression N (Z F))).map (fun s => (s.slope.val, (s.at' x).val))
      = (Window.Regression.run (vals2 ops) : Option (Window.Regression N (X F))).map (fun s => (s.slope, s.at' x.val)) := by
  have H := Z.hom hF
  constructor
  · rw [vals2, ← Window.Comoment.map_run H ops, Option.map_map]
    congr 1
    funext s
    simp only [Function.comp_apply, ← Window.Comoment.map_variance H, ← Window.Comoment.map_unbiasedVariance H]
  · rw [vals2, ← Window.Regression.map_run H ops, Option.map_map]
    congr 1
    funext s
    simp only [Function.comp_apply, ← Window.Regression.map_slope H, ← Window.Regression.map_at H]

/-- C168: the interim moments. -/
theorem C168_interim {W : Nat} (hF : F.Signs) (ops : List (Op (Z F))) :
    let s : Interim.IKurtosis w W (Z F) := Interim.Interim.run ops
    let t : Interim.IKurtosis w W (X F) := Interim.Interim.run (vals ops)
    (Interim.IKurtosis.mean s).val = Interim.IKurtosis.mean t ∧ (Interim.IKurtosis.variance s).val = Interim.IKurtosis.variance t
      ∧ (Interim.IKurtosis.skewness s).val = Interim.IKurtosis.skewness t
      ∧ (Interim.IKurtosis.kurtosis s).val = Interim.IKurtosis.kurtosis t := by
  intro s t
  have H := Z.hom hF
  have e : t = Interim.Interim.map (Cumulative.Kurtosis.map Z.val) s := (Interim.map_run (Interim.kurtosisHom H) ops).symm
  rw [e]
  exact ⟨Interim.map_meanWith (Interim.kurtosisHom H) H (fun _ => rfl) s,
    Interim.map_varianceWith (Interim.kurtosisHom H) H (fun _ => Cumulative.Variance.map_variance H _) s,
    Interim.map_blendWith (Interim.kurtosisHom H) H (fun _ => Cumulative.Skewness.map_skewness H _) s,
    Interim.map_blendWith (Interim.kurtosisHom H) H (Cumulative.Kurtosis.map_kurtosis H) s⟩

/-- C168: the interim covariance and regression. -/
theorem C168_interim_pairs {W : Nat} (hF : F.Signs) (ops : List (Op (Z F × Z F))) (x : Z F) :
    ((Interim.IComoment.variance (Interim.Interim.run ops : Interim.IComoment w W (Z F))).val
      = Interim.IComoment.variance (Interim.Interim.run (vals2 ops) : Interim.IComoment w W (X F)))
    ∧ (Interim.Regression.run ops : Interim.Regression w W (Z F)).slope.val
      = (Interim.Regression.run (vals2 ops) : Interim.Regression w W (X F)).slope
    ∧ ((Interim.Regression.run ops : Interim.Regression w W (Z F)).at' x).val
      = (Interim.Regression.run (vals2 ops) : Interim.Regression w W (X F)).at' x.val := by
  have H := Z.hom hF
  refine ⟨?_, ?_⟩
  · rw [vals2, ← Interim.map_run (Interim.comomentHom H) ops]
    exact Interim.map_varianceWith (Interim.comomentHom H) H (Cumulative.Comoment.map_variance H) _
  · rw [vals2, ← Interim.Regression.map_run H ops]
    exact ⟨Interim.Regression.map_slope H _, Interim.Regression.map_at H _ x⟩

/-- C168: the impulse filters; the scale of the infinite filter must not be the negative zero. -/
theorem C168_impulse (hF : F.Signs) (as bs : List (Z F)) (c : Z F) (hc : c ≠ Z.negZero) (ops : List (Op (Z F))) :
    (Impulse.Finite.run as ops).map (fun s => s.value.val)
        = (Impulse.Finite.run (as.map Z.val) (vals ops)).map Impulse.Finite.value
      ∧ (Impulse.Infinite.run as bs c ops).map (fun s => s.value.val)
        = (Impulse.Infinite.run (as.map Z.val) (bs.map Z.val) c.val (vals ops)).map Impulse.Infinite.value := by
  have H := Z.hom hF
  constructor
  · rw [vals, ← Impulse.Finite.map_run H as ops, Option.map_map]
    rfl
  · rw [vals, ← Impulse.Infinite.map_run H as bs c hc ops, Option.map_map]
    congr 1
    funext s
    exact Impulse.Infinite.map_value H s

/-- C168: the P-square estimates, with the same undefined behaviour. -/
theorem C168_quantile (hF : F.Signs) (rs : List PSquare.Ratio) (r : PSquare.Ratio) (ops : List (Op (Z F))) :
    ((PSquare.PSquare.run rs ops : Option (PSquare.PSquare w (Z F))).bind fun s => (PSquare.PSquare.value rs s r).map Z.val)
      = (PSquare.PSquare.run rs (vals ops) : Option (PSquare.PSquare w (X F))).bind fun s => PSquare.PSquare.value rs s r := by
  have H := Z.hom hF
  rw [vals, ← PSquare.map_run H rs ops]
  cases (PSquare.PSquare.run rs ops : Option (PSquare.PSquare w (Z F))) with
  | none => rfl
  | some s => exact PSquare.map_value H rs s r

/-- C168: the interim quantiles, for any contents of the memory. -/
theorem C168_interim_quantile (hF : F.Signs) (W : Nat) (m : InterimPSquare.Mem w (Z F)) (a k : Nat) (ops : List (Op (Z F))) :
    ((m.run W a ops).bind fun m => (m.get W a k).map Z.val)
      = ((InterimPSquare.Mem.map Z.val m).run W a (vals ops)).bind fun m => m.get W a k := by
  have H := Z.hom hF
  rw [vals, ← InterimPSquare.Mem.map_run H W m a ops]
  cases m.run W a ops with
  | none => rfl
  | some m => exact InterimPSquare.Mem.map_get H W m a k

/-- C168: data that differ only in the signs of zeros have the same kurtosis and the same quantiles, up to the sign of a
zero. -/
theorem C168_data (hF : F.Signs) {ops ops' : List (Op (Z F))} (h : vals ops = vals ops') (rs : List PSquare.Ratio)
    (r : PSquare.Ratio) :
    (Cumulative.Kurtosis.run ops : Cumulative.Kurtosis w (Z F)).kurtosis.val
        = (Cumulative.Kurtosis.run ops' : Cumulative.Kurtosis w (Z F)).kurtosis.val
      ∧ ((PSquare.PSquare.run rs ops : Option (PSquare.PSquare w (Z F))).bind fun s => (PSquare.PSquare.value rs s r).map Z.val)
        = (PSquare.PSquare.run rs ops' : Option (PSquare.PSquare w (Z F))).bind fun s =>
            (PSquare.PSquare.value rs s r).map Z.val := by
  have e1 := (C168_cumulative (w := w) hF ops).2.2.2.2.2.2.2.1
  have e2 := (C168_cumulative (w := w) hF ops').2.2.2.2.2.2.2.1
  constructor
  · rw [e1, e2, h]
  · rw [C168_quantile hF, C168_quantile hF, h]

/-- The formats of IEEE 754 are covered. -/
theorem binary64_signs : binary64.Signs := binary64_binary.signs (by
  show (0 : ℝ) < 2 ^ _
  positivity)

/-- The two zeros are different numbers: 1 divided by them is plus and minus infinity. -/
example : (Z.num (X.fin 1) / Z.negZero : Z binary64) = Z.num X.ninf
    ∧ (Z.num (X.fin 1) / Z.num (X.fin 0) : Z binary64) = Z.num X.pinf := by
  constructor
  · show Z.num (X.neg (X.fin 1 / X.fin 0)) = _
    rw [X.div_fin_zero]
    simp [X.signedInf, X.neg]
  · show Z.withSign (X.fin 1 / X.fin 0) _ = _
    rw [X.div_fin_zero]
    simp [X.signedInf, Z.withSign]

/-- The condition on the scale of the infinite impulse filter is needed: 1 divided by the scale -0 is minus infinity. -/
theorem C168_scale :
    (Impulse.Infinite.run [Z.num (X.fin 1)] [Z.num (X.fin 0)] (Z.negZero : Z (Fmt.exact 1)) [.push (Z.num (X.fin 1))]).map
      (fun s => s.value.val) = some X.ninf
    ∧ (Impulse.Infinite.run [X.fin 1] [X.fin 0] (X.fin 0 : X (Fmt.exact 1)) [.push (X.fin 1)]).map Impulse.Infinite.value
      = some X.pinf := by
  have H := Z.hom (Fmt.exact_signs one_pos)
  constructor
  · show some ((Scalar.ofNat 0 + Z.num (X.fin 1) * Z.num (X.fin 1) - Scalar.ofNat 0) / Z.negZero : Z (Fmt.exact 1)).val = _
    show some (X.neg ((Scalar.ofNat 0 + Z.num (X.fin 1) * Z.num (X.fin 1) - Scalar.ofNat 0 : Z (Fmt.exact 1)).val / X.fin 0)) = _
    rw [H.sub, H.add, H.mul, H.ofNat, Exact.ofNat_eq, Z.val_num, Exact.mul_fin, Exact.add_fin, Exact.sub_fin, X.div_fin_zero]
    norm_num [X.signedInf, X.neg]
  · show some ((Scalar.ofNat 0 + X.fin 1 * X.fin 1 - Scalar.ofNat 0) / X.fin 0 : X (Fmt.exact 1)) = _
    rw [Exact.ofNat_eq, Exact.mul_fin, Exact.add_fin, Exact.sub_fin, X.div_fin_zero]
    norm_num [X.signedInf]

/-- The mean of a single negative zero has the value 0, as that of a zero. -/
example (hw : 0 < w) : (Cumulative.Kurtosis.run [.push Z.negZero] : Cumulative.Kurtosis w (Z (Fmt.exact 1))).getMean.val = X.fin 0 := by
  rw [(C168_cumulative (w := w) (Fmt.exact_signs one_pos) [.push Z.negZero]).2.1]
  have h1 : (1 : Nat) < 2 ^ w := Nat.one_lt_two_pow (by omega)
  show (Scalar.ofNat 0 + (X.fin 0 - Scalar.ofNat 0) / Scalar.ofSize (0 + 1 : SizeT w) : X (Fmt.exact 1)) = _
  have h : (Scalar.ofSize (0 + 1 : SizeT w) : X (Fmt.exact 1)) = X.fin 1 := by
    unfold Scalar.ofSize
    rw [Exact.ofNat_eq]
    simp [Nat.mod_eq_of_lt h1]
  rw [h, Exact.ofNat_eq, Exact.sub_fin, Exact.div_fin _ one_ne_zero, Exact.add_fin]
  norm_num

end Verif.Props
