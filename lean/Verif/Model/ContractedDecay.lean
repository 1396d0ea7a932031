import Verif.Model.Contracted
import Verif.Model.Decay
/-
The decay filters as compiled with contraction of floating-point expressions (see Model/Contracted.lean).  The statements
with a product and a sum are

  decay/detail/moment.ipp:53   `sum.mean += mean_factor * (input - sum.mean)`
  decay/detail/moment.ipp:54   `normalization += mean_factor * (one - normalization)`
  decay/detail/moment.ipp:93   `sum.variance += var_factor * (delta * delta - sum.variance)`
  decay/detail/moment.ipp:94   `normalization += var_factor * (one - normalization)`
  decay/detail/moment.ipp:138  `sum.skewness += skewness_factor * (delta * delta * delta - sum.skewness)`
  decay/detail/moment.ipp:139  `normalization += skewness_factor * (value_type(1) - normalization)`
  decay/detail/moment.ipp:184  `sum.kurtosis += kurtosis_factor * (delta * delta * delta * delta - sum.kurtosis)`
  decay/detail/moment.ipp:185  `normalization += kurtosis_factor * (value_type(1) - normalization)`

Every push says which of them are contracted.
-/
namespace Verif.Contracted
open Scalar

variable {α : Type} [Fused α]

/-- `a * b - c`, contracted or not. -/
def mulSub (fused : Bool) (a b c : α) : α := if fused then Fused.fms a b c else a * b - c

/-- The contractions of the two statements of a push of the variance, the skewness or the kurtosis. -/
structure Smoothing where
  /-- the product and the subtraction in the brackets -/
  inner : Bool
  /-- the product with the factor and the addition to the sum -/
  outer : Bool
  /-- the normalization -/
  norm : Bool

/-- decay/detail/moment.ipp:49-55; the contractions of lines 53 and 54. -/
def DecayMean.push (s : Decay.Mean α) (i : (Bool × Bool) × α) : Decay.Mean α :=
  { s with
    sumMean := addMul i.1.1 s.sumMean s.meanFactor (i.2 - s.sumMean)
    normalization := addMul i.1.2 s.normalization s.meanFactor (ofNat 1 - s.normalization) }

/-- The state after a history of calls on a new filter. -/
def DecayMean.run (meanFactor : α) (ops : List (Op ((Bool × Bool) × α))) : Decay.Mean α :=
  runOps (Decay.Mean.init meanFactor) DecayMean.push Decay.Mean.clear ops

/-- decay/detail/moment.ipp:86-95. -/
def DecayVariance.push (s : Decay.Variance α) (i : ((Bool × Bool) × Smoothing) × α) : Decay.Variance α :=
  let super := DecayMean.push s.super (i.1.1, i.2)
  let mean := super.mean
  let delta := i.2 - mean
  { s with
    super := super
    sumVariance := addMul i.1.2.outer s.sumVariance s.varFactor (mulSub i.1.2.inner delta delta s.sumVariance)
    normalization := addMul i.1.2.norm s.normalization s.varFactor (ofNat 1 - s.normalization) }

/-- The state after a history of calls on a new filter. -/
def DecayVariance.run (meanFactor varFactor : α) (ops : List (Op (((Bool × Bool) × Smoothing) × α))) : Decay.Variance α :=
  runOps (Decay.Variance.init meanFactor varFactor) DecayVariance.push Decay.Variance.clear ops

/-- decay/detail/moment.ipp:132-140. -/
def DecaySkewness.push (s : Decay.Skewness α) (i : (((Bool × Bool) × Smoothing) × Smoothing) × α) : Decay.Skewness α :=
  let super := DecayVariance.push s.super (i.1.1, i.2)
  let mean := super.mean
  let delta := i.2 - mean
  { s with
    super := super
    sumSkewness := addMul i.1.2.outer s.sumSkewness s.skewnessFactor (mulSub i.1.2.inner (delta * delta) delta s.sumSkewness)
    normalization := addMul i.1.2.norm s.normalization s.skewnessFactor (ofNat 1 - s.normalization) }

/-- The state after a history of calls on a new filter. -/
def DecaySkewness.run (meanFactor varFactor skewnessFactor : α)
    (ops : List (Op ((((Bool × Bool) × Smoothing) × Smoothing) × α))) : Decay.Skewness α :=
  runOps (Decay.Skewness.init meanFactor varFactor skewnessFactor) DecaySkewness.push Decay.Skewness.clear ops

/-- decay/detail/moment.ipp:178-186. -/
def DecayKurtosis.push (s : Decay.Kurtosis α) (i : ((((Bool × Bool) × Smoothing) × Smoothing) × Smoothing) × α) : Decay.Kurtosis α :=
  let super := DecaySkewness.push s.super (i.1.1, i.2)
  let mean := super.mean
  let delta := i.2 - mean
  { s with
    super := super
    sumKurtosis := addMul i.1.2.outer s.sumKurtosis s.kurtosisFactor (mulSub i.1.2.inner (delta * delta * delta) delta s.sumKurtosis)
    normalization := addMul i.1.2.norm s.normalization s.kurtosisFactor (ofNat 1 - s.normalization) }

/-- The state after a history of calls on a new filter. -/
def DecayKurtosis.run (meanFactor varFactor skewnessFactor kurtosisFactor : α)
    (ops : List (Op (((((Bool × Bool) × Smoothing) × Smoothing) × Smoothing) × α))) : Decay.Kurtosis α :=
  runOps (Decay.Kurtosis.init meanFactor varFactor skewnessFactor kurtosisFactor) DecayKurtosis.push Decay.Kurtosis.clear ops

end Verif.Contracted
