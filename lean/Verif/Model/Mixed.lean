import Verif.Format
import Verif.Model.Cumulative
/-
The skewness for value types other than `double`.

`std::sqrt` of an integer yields `double` ([cmath.syn]), so cumulative/detail/moment.ipp:110 and :122 mix two types.  The
operands are converted to the wider of the two (the usual arithmetic conversions), and the result to the value type.
`F` is the format of the value type, `D` that of `double`, `W` the wider one.
-/
namespace Verif
open Scalar

/-- `long double` of the x87 (64 digits). -/
noncomputable def extended80 : Fmt := Fmt.ieee 64 (-16445) 16384
/-- `long double` with 113 digits (AArch64, RISC-V). -/
noncomputable def binary128 : Fmt := Fmt.ieee 113 (-16494) 16384

/-- Conversion between floating-point types. -/
noncomputable def X.conv {F : Fmt} (G : Fmt) : X F → X G
  | X.fin r => X.round r
  | X.pinf => X.pinf
  | X.ninf => X.ninf
  | X.nan => X.nan

namespace Cumulative.Skewness
variable {F : Fmt} {w : Nat}

/-- cumulative/detail/moment.ipp:105-111. -/
noncomputable def skewnessIn (D W : Fmt) (s : Skewness w (X F)) : X F :=
  if lt s.sumSkewness eps then ofNat 0
  else X.conv F (X.conv W (sqrt (ofSize s.size : X D)) * X.conv W s.sumSkewness
    / X.conv W (sqrt s.super.sumVariance * s.super.sumVariance) : X W)

/-- cumulative/detail/moment.ipp:113-123. -/
noncomputable def unbiasedSkewnessIn (D W : Fmt) (s : Skewness w (X F)) : X F :=
  let count := s.size
  if count < 2 then ofNat 0
  else if lt s.sumSkewness eps then ofNat 0
  else X.conv F (X.conv W (s.skewnessIn D W) * X.conv W (sqrt (ofSize (count * (count - 1)) : X D)) / X.conv W (ofSize (count - 2) : X F) : X W)

end Cumulative.Skewness
end Verif
