import Verif.Scalar
/-
Model of include/trial/online/cumulative/{moment,comoment,correlation,regression,trend}.hpp and
their detail/*.ipp files.  Paths in comments are relative to /repo/include/trial/online.

Inheritance is modelled by a field holding the base-class state (`super`).
-/
namespace Verif.Cumulative
open Scalar

variable {w : Nat} {α : Type} [Scalar α]

/-! ### Mean -/

/-- cumulative/moment.hpp:71-75 `member.mean`, `member.count`. -/
structure Mean (w : Nat) (α : Type) where
  mean : α
  count : SizeT w

namespace Mean

/-- cumulative/moment.hpp:73-74, default member initialisers. -/
def init : Mean w α := { mean := ofNat 0, count := 0 }

/-- cumulative/detail/moment.ipp:25-30. -/
def clear (_ : Mean w α) : Mean w α := { mean := ofNat 0, count := 0 }

/-- cumulative/detail/moment.ipp:32-36. -/
def size (s : Mean w α) : SizeT w := s.count

/-- cumulative/detail/moment.ipp:38-42. -/
def empty (s : Mean w α) : Bool := s.size == 0

/-- cumulative/detail/moment.ipp:44-48 (`mean()`; the field has the same name). -/
def getMean (s : Mean w α) : α := s.mean

/-- cumulative/detail/moment.ipp:50-54; `member.mean * member.count` converts the count to `T`. -/
def unbiasedMean (s : Mean w α) : α :=
  s.mean * ofSize s.count / ofSize (s.count - 1)

/-- cumulative/detail/moment.ipp:56-61. -/
def push (s : Mean w α) (input : α) : Mean w α :=
  let count := s.count + 1
  { count := count
    mean := s.mean + (input - s.mean) / ofSize count }

/-- The state after a history of calls on a new filter. -/
def run (ops : List (Op α)) : Mean w α := runOps init push clear ops

end Mean

/-! ### Mean with variance -/

/-- cumulative/moment.hpp:80-121. -/
structure Variance (w : Nat) (α : Type) where
  super : Mean w α
  sumVariance : α

namespace Variance

/-- cumulative/moment.hpp:119. -/
def init : Variance w α := { super := Mean.init, sumVariance := ofNat 0 }

/-- cumulative/detail/moment.ipp:67-72. -/
def clear (s : Variance w α) : Variance w α :=
  { super := s.super.clear, sumVariance := ofNat 0 }

/-- cumulative/moment.hpp:99 `using super::size`. -/
def size (s : Variance w α) : SizeT w := s.super.size
/-- cumulative/moment.hpp:100 `using super::empty`. -/
def empty (s : Variance w α) : Bool := s.super.empty
/-- cumulative/moment.hpp:101 `using super::mean`. -/
def getMean (s : Variance w α) : α := s.super.getMean
/-- cumulative/moment.hpp:102 `using super::unbiased_mean`. -/
def unbiasedMean (s : Variance w α) : α := s.super.unbiasedMean

/-- cumulative/detail/moment.ipp:74-78. -/
def variance (s : Variance w α) : α := s.sumVariance / ofSize s.super.count

/-- cumulative/detail/moment.ipp:80-84. -/
def unbiasedVariance (s : Variance w α) : α := s.sumVariance / ofSize (s.super.count - 1)

/-- cumulative/detail/moment.ipp:86-92. -/
def push (s : Variance w α) (input : α) : Variance w α :=
  let diff := input - s.super.getMean
  let super := s.super.push input
  { super := super
    sumVariance := s.sumVariance + diff * (input - super.getMean) }

/-- The state after a history of calls on a new filter. -/
def run (ops : List (Op α)) : Variance w α := runOps init push clear ops

end Variance

/-! ### Mean with variance and skewness -/

/-- cumulative/moment.hpp:125-153. -/
structure Skewness (w : Nat) (α : Type) where
  super : Variance w α
  sumSkewness : α

namespace Skewness

/-- cumulative/moment.hpp:151. -/
def init : Skewness w α := { super := Variance.init, sumSkewness := ofNat 0 }

/-- cumulative/detail/moment.ipp:98-103. -/
def clear (s : Skewness w α) : Skewness w α :=
  { super := s.super.clear, sumSkewness := ofNat 0 }

/-- cumulative/moment.hpp:139 `using super::size`. -/
def size (s : Skewness w α) : SizeT w := s.super.size
/-- cumulative/moment.hpp:140 `using super::empty`. -/
def empty (s : Skewness w α) : Bool := s.super.empty
/-- cumulative/moment.hpp:141 `using super::mean`. -/
def getMean (s : Skewness w α) : α := s.super.getMean
/-- cumulative/moment.hpp:142 `using super::unbiased_mean`. -/
def unbiasedMean (s : Skewness w α) : α := s.super.unbiasedMean
/-- cumulative/moment.hpp:143 `using super::variance`. -/
def variance (s : Skewness w α) : α := s.super.variance
/-- cumulative/moment.hpp:144 `using super::unbiased_variance`. -/
def unbiasedVariance (s : Skewness w α) : α := s.super.unbiasedVariance

/-- cumulative/detail/moment.ipp:105-111.  `std::sqrt(super::size())` converts the count to
floating point (`std::sqrt(integer)` yields `double`; for `T = double` this is the model's `ofSize`, for the
other types see `Model/Mixed.lean`). -/
def skewness (s : Skewness w α) : α :=
  if lt s.sumSkewness eps then ofNat 0
  else sqrt (ofSize s.size) * s.sumSkewness / (sqrt s.super.sumVariance * s.super.sumVariance)

/-- cumulative/detail/moment.ipp:113-123; `count * (count - 1)` is computed in `size_t`. -/
def unbiasedSkewness (s : Skewness w α) : α :=
  let count := s.size
  if count < 2 then ofNat 0
  else if lt s.sumSkewness eps then ofNat 0
  else s.skewness * sqrt (ofSize (count * (count - 1))) / ofSize (count - 2)

/-- cumulative/detail/moment.ipp:125-137.  `n`, `n - 1`, `n - 2` are `size_t` (so `n - 2` wraps when
`n = 1`); each is converted to `T` by the left-associated multiplications.  `3 * sum.variance` converts
the `int` literal. -/
def push (s : Skewness w α) (input : α) : Skewness w α :=
  let count := s.size
  let delta := input - s.super.getMean
  let n := count + 1
  let deltaOverN := delta / ofSize n
  { sumSkewness := s.sumSkewness +
      ((delta * deltaOverN * ofSize (n - 1) * ofSize (n - 2))
        - ofNat 3 * s.super.sumVariance) * deltaOverN
    super := s.super.push input }

/-- The state after a history of calls on a new filter. -/
def run (ops : List (Op α)) : Skewness w α := runOps init push clear ops

end Skewness

/-! ### Mean with variance, skewness, and kurtosis -/

/-- cumulative/moment.hpp:157-187. -/
structure Kurtosis (w : Nat) (α : Type) where
  super : Skewness w α
  sumKurtosis : α

namespace Kurtosis

/-- cumulative/moment.hpp:185. -/
def init : Kurtosis w α := { super := Skewness.init, sumKurtosis := ofNat 0 }

/-- cumulative/detail/moment.ipp:143-148. -/
def clear (s : Kurtosis w α) : Kurtosis w α :=
  { super := s.super.clear, sumKurtosis := ofNat 0 }

/-- cumulative/moment.hpp:171 `using super::size`. -/
def size (s : Kurtosis w α) : SizeT w := s.super.size
/-- cumulative/moment.hpp:172 `using super::empty`. -/
def empty (s : Kurtosis w α) : Bool := s.super.empty
/-- cumulative/moment.hpp:173 `using super::mean`. -/
def getMean (s : Kurtosis w α) : α := s.super.getMean
/-- cumulative/moment.hpp:174 `using super::unbiased_mean`. -/
def unbiasedMean (s : Kurtosis w α) : α := s.super.unbiasedMean
/-- cumulative/moment.hpp:175 `using super::variance`. -/
def variance (s : Kurtosis w α) : α := s.super.variance
/-- cumulative/moment.hpp:176 `using super::unbiased_variance`. -/
def unbiasedVariance (s : Kurtosis w α) : α := s.super.unbiasedVariance
/-- cumulative/moment.hpp:177 `using super::skewness`. -/
def skewness (s : Kurtosis w α) : α := s.super.skewness
/-- cumulative/moment.hpp:178 `using super::unbiased_skewness`. -/
def unbiasedSkewness (s : Kurtosis w α) : α := s.super.unbiasedSkewness

/-- cumulative/detail/moment.ipp:150-156. -/
def kurtosis (s : Kurtosis w α) : α :=
  if lt s.sumKurtosis eps then ofNat 0
  else ofSize s.size * s.sumKurtosis / (s.super.super.sumVariance * s.super.super.sumVariance)

/-- cumulative/detail/moment.ipp:158-168; `(count - 2) * (count - 3)` is computed in `size_t`. -/
def unbiasedKurtosis (s : Kurtosis w α) : α :=
  let count := s.size
  if count < 4 then ofNat 0
  else if lt s.sumKurtosis eps then ofNat 0
  else ofNat 3 + ofSize (count - 1) / ofSize ((count - 2) * (count - 3))
    * (ofSize (count + 1) * s.kurtosis - ofNat 3 * ofSize (count - 1))

/-- cumulative/detail/moment.ipp:170-185.  `n * (n - 3) + 3` is computed in `size_t`. -/
def push (s : Kurtosis w α) (input : α) : Kurtosis w α :=
  let count := s.size
  let delta := input - s.super.getMean
  let n := count + 1
  let deltaOverN := delta / ofSize n
  let expr := delta * deltaOverN * ofSize (n - 1) * ofSize (n * (n - 3) + 3)
  let varExpr := ofNat 6 * s.super.super.sumVariance
  let skewnessExpr := ofNat 4 * s.super.sumSkewness
  { sumKurtosis := s.sumKurtosis + ((expr + varExpr) * deltaOverN - skewnessExpr) * deltaOverN
    super := s.super.push input }

/-- The state after a history of calls on a new filter. -/
def run (ops : List (Op α)) : Kurtosis w α := runOps init push clear ops

end Kurtosis

/-! ### Covariance -/

/-- cumulative/comoment.hpp:45-48. -/
structure Comoment (w : Nat) (α : Type) where
  xCenter : Mean w α
  yCenter : Mean w α
  center : α

namespace Comoment

/-- cumulative/comoment.hpp:46-48. -/
def init : Comoment w α := { xCenter := Mean.init, yCenter := Mean.init, center := ofNat 0 }

/-- cumulative/detail/comoment.ipp:24-30. -/
def clear (s : Comoment w α) : Comoment w α :=
  { xCenter := s.xCenter.clear, yCenter := s.yCenter.clear, center := ofNat 0 }

/-- cumulative/detail/comoment.ipp:32-39. -/
def push (s : Comoment w α) (p : α × α) : Comoment w α :=
  let xCenter := s.xCenter.push p.1
  { xCenter := xCenter
    center := s.center + (p.1 - xCenter.getMean) * (p.2 - s.yCenter.getMean)
    yCenter := s.yCenter.push p.2 }

/-- cumulative/detail/comoment.ipp:44: the condition of the `assert` in `size()`. -/
def sizeAssertion (s : Comoment w α) : Prop := s.xCenter.size = s.yCenter.size

/-- cumulative/detail/comoment.ipp:41-47. -/
def size (s : Comoment w α) : SizeT w := s.xCenter.size

/-- cumulative/detail/comoment.ipp:49-55. -/
def variance (s : Comoment w α) : α :=
  if s.size > 0 then s.center / ofSize s.size else ofNat 0

/-- cumulative/detail/comoment.ipp:57-64. -/
def unbiasedVariance (s : Comoment w α) : α :=
  if s.size > 1 then s.center / ofSize (s.size - 1) else ofNat 0

/-- The state after a history of calls on a new filter. -/
def run (ops : List (Op (α × α))) : Comoment w α := runOps init push clear ops

end Comoment

/-! ### Correlation -/

/-- cumulative/correlation.hpp:52-55. -/
structure Correlation (w : Nat) (α : Type) where
  co : Comoment w α
  x : Variance w α
  y : Variance w α

namespace Correlation

/-- cumulative/correlation.hpp:25-56, implicit default constructor. -/
def init : Correlation w α := { co := Comoment.init, x := Variance.init, y := Variance.init }

/-- cumulative/detail/correlation.ipp:21-27. -/
def clear (s : Correlation w α) : Correlation w α :=
  { co := s.co.clear, x := s.x.clear, y := s.y.clear }

/-- cumulative/detail/correlation.ipp:29-33. -/
def size (s : Correlation w α) : SizeT w := s.co.size

/-- cumulative/detail/correlation.ipp:35-41. -/
def push (s : Correlation w α) (p : α × α) : Correlation w α :=
  { co := s.co.push p, x := s.x.push p.1, y := s.y.push p.2 }

/-- cumulative/detail/correlation.ipp:43-50. -/
def value (s : Correlation w α) : α :=
  let varianceProduct := s.x.variance * s.y.variance
  if lt varianceProduct eps then ofNat 1
  else s.co.variance / sqrt varianceProduct

/-- The state after a history of calls on a new filter. -/
def run (ops : List (Op (α × α))) : Correlation w α := runOps init push clear ops

end Correlation

/-! ### Regression -/

/-- cumulative/regression.hpp:70-73. -/
structure Regression (w : Nat) (α : Type) where
  co : Comoment w α
  x : Variance w α
  y : Variance w α

namespace Regression

/-- cumulative/regression.hpp:31-74, implicit default constructor. -/
def init : Regression w α := { co := Comoment.init, x := Variance.init, y := Variance.init }

/-- cumulative/detail/regression.ipp:21-27. -/
def clear (s : Regression w α) : Regression w α :=
  { co := s.co.clear, x := s.x.clear, y := s.y.clear }

/-- cumulative/detail/regression.ipp:32: the condition of the `assert` in `size()`. -/
def sizeAssertion (s : Regression w α) : Prop := s.x.size = s.y.size

/-- cumulative/detail/regression.ipp:29-35. -/
def size (s : Regression w α) : SizeT w := s.x.size

/-- cumulative/detail/regression.ipp:37-43. -/
def push (s : Regression w α) (p : α × α) : Regression w α :=
  { co := s.co.push p, x := s.x.push p.1, y := s.y.push p.2 }

/-- cumulative/detail/regression.ipp:51-58. -/
def slope (s : Regression w α) : α :=
  let divisor := s.x.variance
  if beq divisor (ofNat 0) then ofNat 0 else s.co.variance / divisor

/-- cumulative/detail/regression.ipp:45-49 (`at`). -/
def at' (s : Regression w α) (position : α) : α :=
  s.y.getMean - s.slope * (s.x.getMean - position)

/-- The state after a history of calls on a new filter. -/
def run (ops : List (Op (α × α))) : Regression w α := runOps init push clear ops

end Regression

/-! ### Trend -/

/-- cumulative/trend.hpp:39-41. -/
structure Trend (w : Nat) (α : Type) where
  center : Mean w α
  grand : Mean w α

namespace Trend

/-- cumulative/trend.hpp:26-42, implicit default constructor. -/
def init : Trend w α := { center := Mean.init, grand := Mean.init }

/-- cumulative/detail/trend.ipp:18-23. -/
def clear (s : Trend w α) : Trend w α := { center := s.center.clear, grand := s.grand.clear }

/-- cumulative/detail/trend.ipp:25-30. -/
def push (s : Trend w α) (input : α) : Trend w α :=
  let center := s.center.push input
  { center := center, grand := s.grand.push center.getMean }

/-- cumulative/detail/trend.ipp:32-36. -/
def size (s : Trend w α) : SizeT w := s.center.size

/-- cumulative/detail/trend.ipp:38-47. -/
def value (s : Trend w α) : α :=
  s.center.getMean + ofNat 2 * (s.center.getMean - s.grand.getMean)

/-- The state after a history of calls on a new filter. -/
def run (ops : List (Op α)) : Trend w α := runOps init push clear ops

end Trend
end Verif.Cumulative
