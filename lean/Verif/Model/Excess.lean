import Verif.Format
import Verif.Model.Mixed
import Verif.Model.Contracted
/-
The cumulative mean, variance and covariance with excess precision: C++ ([expr.pre]/6) lets an implementation evaluate
floating-point expressions with more digits and range than the value type has (`FLT_EVAL_METHOD` 1 and 2: `float`
in `double`, `double` in `long double` on the x87).  `F` is the format of the value type, `W` that of the
evaluation.

* Every intermediate result is a number of `W`.  The compiler may also round any one of them to `F`: it does so where
  a register is spilled to memory, on assignment to a local variable and in a cast (ISO), or it does not
  (`-fexcess-precision=fast`).  Every push says which, so the theorems hold for all mixtures.
* Members of the filters are stored as numbers of `F`.
* `a * b + c` may also be contracted (one rounding in `W`).
-/
namespace Verif
open Scalar

/-- A value that is rounded to the value type, or not. -/
noncomputable def X.spill {W : Fmt} (F : Fmt) (b : Bool) (x : X W) : X W := if b then X.conv W (X.conv F x) else x

namespace Excess
variable {w : Nat} {F : Fmt}

/-- `value_type(count)`, rounded to the value type or not. -/
noncomputable def countIn (F W : Fmt) (b : Bool) (n : SizeT w) : X W := if b then X.conv W (ofSize n : X F) else ofSize n

/-- Which intermediate results of the update of the mean are rounded to the value type. -/
structure MeanSpills where
  diff : Bool
  count : Bool
  quot : Bool
  sum : Bool

/-- cumulative/detail/moment.ipp:56-61. -/
noncomputable def Mean.push (W : Fmt) (c : MeanSpills) (s : Cumulative.Mean w (X F)) (input : X F) : Cumulative.Mean w (X F) :=
  let count := s.count + 1
  { count := count
    mean := X.conv F (X.spill F c.sum
      (X.conv W s.mean + X.spill F c.quot
        (X.spill F c.diff (X.conv W input - X.conv W s.mean) / countIn F W c.count count))) }

/-- The state after a history of calls on a new filter. -/
noncomputable def Mean.run (W : Fmt) (ops : List (Op (MeanSpills × X F))) : Cumulative.Mean w (X F) :=
  runOps Cumulative.Mean.init (fun s i => Mean.push W i.1 s i.2) Cumulative.Mean.clear ops

/-- Which intermediate results of `sum += a * b` are rounded to the value type, and whether it is contracted. -/
structure SumSpills where
  left : Bool
  right : Bool
  prod : Bool
  sum : Bool
  fused : Bool

/-- `sum + a * b`. -/
noncomputable def addMul (W : Fmt) (c : SumSpills) (sum : X F) (a b : X W) : X F :=
  let a := X.spill F c.left a
  let b := X.spill F c.right b
  X.conv F (X.spill F c.sum (if c.fused then Fused.fma a b (X.conv W sum) else X.conv W sum + X.spill F c.prod (a * b)))

/-- cumulative/detail/moment.ipp:86-92. -/
noncomputable def Variance.push (W : Fmt) (c : MeanSpills × SumSpills) (s : Cumulative.Variance w (X F)) (input : X F) :
    Cumulative.Variance w (X F) :=
  let diff : X W := X.conv W input - X.conv W s.super.mean
  let super := Mean.push W c.1 s.super input
  { super := super
    sumVariance := addMul W c.2 s.sumVariance diff (X.conv W input - X.conv W super.mean) }

/-- The state after a history of calls on a new filter. -/
noncomputable def Variance.run (W : Fmt) (ops : List (Op ((MeanSpills × SumSpills) × X F))) : Cumulative.Variance w (X F) :=
  runOps Cumulative.Variance.init (fun s i => Variance.push W i.1 s i.2) Cumulative.Variance.clear ops

/-- cumulative/detail/moment.ipp:74-78; the result is rounded to the value type by the `return`. -/
noncomputable def Variance.variance (W : Fmt) (b : Bool) (s : Cumulative.Variance w (X F)) : X F :=
  X.conv F (X.conv W s.sumVariance / countIn F W b s.super.count)

/-- cumulative/detail/moment.ipp:80-84. -/
noncomputable def Variance.unbiasedVariance (W : Fmt) (b : Bool) (s : Cumulative.Variance w (X F)) : X F :=
  X.conv F (X.conv W s.sumVariance / countIn F W b (s.super.count - 1))

/-- cumulative/detail/comoment.ipp:32-39. -/
noncomputable def Comoment.push (W : Fmt) (c : (MeanSpills × MeanSpills) × SumSpills) (s : Cumulative.Comoment w (X F)) (x y : X F) :
    Cumulative.Comoment w (X F) :=
  let xCenter := Mean.push W c.1.1 s.xCenter x
  { xCenter := xCenter
    center := addMul W c.2 s.center (X.conv W x - X.conv W xCenter.mean) (X.conv W y - X.conv W s.yCenter.mean)
    yCenter := Mean.push W c.1.2 s.yCenter y }

/-- The state after a history of calls on a new filter. -/
noncomputable def Comoment.run (W : Fmt) (ops : List (Op (((MeanSpills × MeanSpills) × SumSpills) × (X F × X F)))) :
    Cumulative.Comoment w (X F) :=
  runOps Cumulative.Comoment.init (fun s i => Comoment.push W i.1 s i.2.1 i.2.2) Cumulative.Comoment.clear ops

/-- cumulative/detail/comoment.ipp:49-55; `b` says whether the converted size is rounded to the value type. -/
noncomputable def Comoment.variance (W : Fmt) (b : Bool) (s : Cumulative.Comoment w (X F)) : X F :=
  if s.size > 0 then X.conv F (X.conv W s.center / countIn F W b s.size) else ofNat 0

/-- cumulative/detail/comoment.ipp:57-63. -/
noncomputable def Comoment.unbiasedVariance (W : Fmt) (b : Bool) (s : Cumulative.Comoment w (X F)) : X F :=
  if s.size > 1 then X.conv F (X.conv W s.center / countIn F W b (s.size - 1)) else ofNat 0

end Excess
end Verif
