import Verif.Scalar
/-
Model of include/trial/online/decay/moment.hpp, detail/moment.ipp and of the deprecated wrapper
moment/exponential.hpp.  Paths in comments are relative to /repo/include/trial/online.

Each class in the inheritance chain has its own `normalization` and `sum` members which hide those of
the base class (decay/moment.hpp:54, 88, 123, 163).  The constructor `assert`s
(detail/moment.ipp:30-31, 67-68, 108-109, 154-155) are the preconditions `0 < factor ≤ 1`.
-/
namespace Verif.Decay
open Scalar

variable {α : Type} [Scalar α]

/-! ### Mean -/

/-- decay/moment.hpp:53-58. -/
structure Mean (α : Type) where
  meanFactor : α
  normalization : α
  sumMean : α

namespace Mean

/-- decay/detail/moment.ipp:26-32 and decay/moment.hpp:54-57. -/
def init (meanFactor : α) : Mean α :=
  { meanFactor := meanFactor, normalization := ofNat 0, sumMean := ofNat 0 }

/-- decay/detail/moment.ipp:34-39. -/
def clear (s : Mean α) : Mean α := { s with sumMean := ofNat 0, normalization := ofNat 0 }

/-- decay/detail/moment.ipp:41-47. -/
def mean (s : Mean α) : α :=
  if lt (ofNat 0) s.normalization then s.sumMean / s.normalization else ofNat 0

/-- decay/detail/moment.ipp:49-55. -/
def push (s : Mean α) (input : α) : Mean α :=
  { s with
    sumMean := s.sumMean + s.meanFactor * (input - s.sumMean)
    normalization := s.normalization + s.meanFactor * (ofNat 1 - s.normalization) }

/-- The state after a history of calls on a new filter. -/
def run (meanFactor : α) (ops : List (Op α)) : Mean α := runOps (init meanFactor) push clear ops

end Mean

/-! ### Mean with variance -/

/-- decay/moment.hpp:63-93. -/
structure Variance (α : Type) where
  super : Mean α
  varFactor : α
  normalization : α
  sumVariance : α

namespace Variance

/-- decay/detail/moment.ipp:61-69 and decay/moment.hpp:88-91. -/
def init (meanFactor varFactor : α) : Variance α :=
  { super := Mean.init meanFactor, varFactor := varFactor
    normalization := ofNat 0, sumVariance := ofNat 0 }

/-- decay/detail/moment.ipp:71-76.  The `normalization` member of this class is not reset. -/
def clear (s : Variance α) : Variance α :=
  { s with super := s.super.clear, sumVariance := ofNat 0 }

/-- decay/moment.hpp:83 `using super::mean`. -/
def mean (s : Variance α) : α := s.super.mean

/-- decay/detail/moment.ipp:78-84. -/
def variance (s : Variance α) : α :=
  if lt (ofNat 0) s.normalization then s.sumVariance / s.normalization else ofNat 0

/-- decay/detail/moment.ipp:86-95. -/
def push (s : Variance α) (input : α) : Variance α :=
  let super := s.super.push input
  let mean := super.mean
  let delta := input - mean
  { s with
    super := super
    sumVariance := s.sumVariance + s.varFactor * (delta * delta - s.sumVariance)
    normalization := s.normalization + s.varFactor * (ofNat 1 - s.normalization) }

/-- The state after a history of calls on a new filter. -/
def run (meanFactor varFactor : α) (ops : List (Op α)) : Variance α :=
  runOps (init meanFactor varFactor) push clear ops

end Variance

/-! ### Mean with variance and skewness -/

/-- decay/moment.hpp:97-128. -/
structure Skewness (α : Type) where
  super : Variance α
  skewnessFactor : α
  normalization : α
  sumSkewness : α

namespace Skewness

/-- decay/detail/moment.ipp:101-110 and decay/moment.hpp:123-126. -/
def init (meanFactor varFactor skewnessFactor : α) : Skewness α :=
  { super := Variance.init meanFactor varFactor, skewnessFactor := skewnessFactor
    normalization := ofNat 0, sumSkewness := ofNat 0 }

/-- decay/detail/moment.ipp:112-117.  The `normalization` member of this class is not reset. -/
def clear (s : Skewness α) : Skewness α :=
  { s with super := s.super.clear, sumSkewness := ofNat 0 }

/-- decay/moment.hpp:117 `using super::mean`. -/
def mean (s : Skewness α) : α := s.super.mean
/-- decay/moment.hpp:118 `using super::variance`. -/
def variance (s : Skewness α) : α := s.super.variance

/-- decay/detail/moment.ipp:119-130. -/
def skewness (s : Skewness α) : α :=
  if lt (ofNat 0) s.normalization then
    let var := s.super.variance
    if lt eps var then s.sumSkewness / (var * sqrt var) / s.normalization else ofNat 0
  else ofNat 0

/-- decay/detail/moment.ipp:132-140. -/
def push (s : Skewness α) (input : α) : Skewness α :=
  let super := s.super.push input
  let mean := super.mean
  let delta := input - mean
  { s with
    super := super
    sumSkewness := s.sumSkewness + s.skewnessFactor * (delta * delta * delta - s.sumSkewness)
    normalization := s.normalization + s.skewnessFactor * (ofNat 1 - s.normalization) }

/-- The state after a history of calls on a new filter. -/
def run (meanFactor varFactor skewnessFactor : α) (ops : List (Op α)) : Skewness α :=
  runOps (init meanFactor varFactor skewnessFactor) push clear ops

end Skewness

/-! ### Mean with variance, skewness, and kurtosis -/

/-- decay/moment.hpp:132-164. -/
structure Kurtosis (α : Type) where
  super : Skewness α
  kurtosisFactor : α
  normalization : α
  sumKurtosis : α

namespace Kurtosis

/-- decay/detail/moment.ipp:146-156 and decay/moment.hpp:161-163. -/
def init (meanFactor varFactor skewnessFactor kurtosisFactor : α) : Kurtosis α :=
  { super := Skewness.init meanFactor varFactor skewnessFactor, kurtosisFactor := kurtosisFactor
    normalization := ofNat 0, sumKurtosis := ofNat 0 }

/-- decay/detail/moment.ipp:158-163.  The `normalization` member of this class is not reset. -/
def clear (s : Kurtosis α) : Kurtosis α :=
  { s with super := s.super.clear, sumKurtosis := ofNat 0 }

/-- decay/moment.hpp:152 `using super::mean`. -/
def mean (s : Kurtosis α) : α := s.super.mean
/-- decay/moment.hpp:153 `using super::variance`. -/
def variance (s : Kurtosis α) : α := s.super.variance
/-- decay/moment.hpp:154 `using super::skewness`. -/
def skewness (s : Kurtosis α) : α := s.super.skewness

/-- decay/detail/moment.ipp:165-176. -/
def kurtosis (s : Kurtosis α) : α :=
  if lt (ofNat 0) s.normalization then
    let var := s.super.variance
    if lt eps var then s.sumKurtosis / (var * var) / s.normalization else ofNat 0
  else ofNat 0

/-- decay/detail/moment.ipp:178-186. -/
def push (s : Kurtosis α) (input : α) : Kurtosis α :=
  let super := s.super.push input
  let mean := super.mean
  let delta := input - mean
  { s with
    super := super
    sumKurtosis := s.sumKurtosis
      + s.kurtosisFactor * (delta * delta * delta * delta - s.sumKurtosis)
    normalization := s.normalization + s.kurtosisFactor * (ofNat 1 - s.normalization) }

/-- The state after a history of calls on a new filter. -/
def run (meanFactor varFactor skewnessFactor kurtosisFactor : α) (ops : List (Op α)) : Kurtosis α :=
  runOps (init meanFactor varFactor skewnessFactor kurtosisFactor) push clear ops

end Kurtosis

/-! ### moment::exponential (deprecated) -/

/-- moment/exponential.hpp:28-44: `exponential<T, MeanRatio>` derives from `decay::basic_moment<T, mean>`;
`num`, `den` are `MeanRatio::num`, `MeanRatio::den`. -/
structure Exponential (α : Type) where
  super : Mean α

namespace Exponential
/-- moment/exponential.hpp:37-39. -/
def init (num : Int) (den : Nat) : Exponential α := ⟨Mean.init (ofInt num / ofNat den)⟩
/-- moment/exponential.hpp:41. -/
def clear (s : Exponential α) : Exponential α := ⟨s.super.clear⟩
/-- moment/exponential.hpp:42. -/
def push (s : Exponential α) (x : α) : Exponential α := ⟨s.super.push x⟩
/-- moment/exponential.hpp:43. -/
def value (s : Exponential α) : α := s.super.mean
/-- The state after a history of calls on a new filter. -/
def run (num : Int) (den : Nat) (ops : List (Op α)) : Exponential α :=
  runOps (init num den) push clear ops
end Exponential

end Verif.Decay
