import Verif.Model.IntegerTypes
/-
cumulative::basic_trend for integer value types: cumulative/trend.hpp:26-42 has no static_assert, its members
(`cumulative::basic_moment<T, with::mean>`) admit every integer type but `bool`.
Paths in comments are relative to /repo/include/trial/online.
-/
namespace Verif.IntT
open CInt

variable (P : Platform) (T : Ty)

/-- cumulative/trend.hpp:39-41. -/
structure Trend where
  center : Mean
  grand : Mean
  deriving DecidableEq, Repr

namespace Trend
/-- cumulative/trend.hpp:26-42, implicit default constructor. -/
def init : Trend := ⟨Mean.init, Mean.init⟩

/-- cumulative/detail/trend.ipp:25-30. -/
def push (s : Trend) (input : Int) : Option Trend := do
  let center ← s.center.push P T input
  let grand ← s.grand.push P T center.mean
  return ⟨center, grand⟩

/-- cumulative/detail/trend.ipp:38-47; `value_type(2)` is a conversion of the literal. -/
def value (s : Trend) : Option Int := do
  let diff ← P.sub ⟨T, s.center.mean⟩ ⟨T, s.grand.mean⟩
  let twice ← P.mul (cast T (P.lit 2)) diff
  let r ← P.add ⟨T, s.center.mean⟩ twice
  return T.conv r.val

/-- Pushing a list of values to a new filter. -/
def run (xs : List Int) : Option Trend := xs.foldlM (push P T) init
end Trend

end Verif.IntT
