import Verif.Ext
/-
Floating-point arithmetic with two zeros.

`Z F` refines `X F` (Verif/Ext.lean) by the negative zero of IEEE 754, which compares equal to the zero but divides with the
other sign.  The filters are the same models over this arithmetic.
-/
namespace Verif
open Classical

/-- Numbers of format `F` with the special values and the negative zero; `num (fin 0)` is the positive zero. -/
inductive Z (F : Fmt) where
  | num (x : X F)
  | negZero

namespace Z
variable {F : Fmt}

/-- The value without the sign of a zero. -/
noncomputable def val : Z F → X F
  | num x => x
  | negZero => X.fin 0

/-- `std::signbit(a)` (not of a NaN). -/
noncomputable def sign : Z F → Bool
  | negZero => true
  | num (X.fin r) => decide (r < 0)
  | num X.ninf => true
  | num X.pinf => false
  | num X.nan => false

/-- The result `x` of an operation; if it is a zero, it has the sign `neg`. -/
noncomputable def withSign (x : X F) (neg : Bool) : Z F := if x = X.fin 0 ∧ neg = true then negZero else num x

/-- The sign of a zero sum: a sum of two negative zeros is negative, an exact sum that is zero is otherwise positive, and
a sum that is rounded to zero keeps its sign. -/
noncomputable def addSign : Z F → Z F → Bool
  | negZero, negZero => true
  | num (X.fin a), num (X.fin b) => decide (a + b < 0)
  | _, _ => false

/-- The sign of a zero difference. -/
noncomputable def subSign : Z F → Z F → Bool
  | negZero, num (X.fin b) => decide (b = 0)
  | num (X.fin a), num (X.fin b) => decide (a - b < 0)
  | _, _ => false

/-- `a / b`. -/
noncomputable def div (a : Z F) : Z F → Z F
  | negZero => num (X.neg (a.val / X.fin 0))
  | num b => withSign (a.val / b) (a.sign ^^ (num b).sign)

noncomputable instance : Scalar (Z F) where
  add a b := withSign (a.val + b.val) (addSign a b)
  sub a b := withSign (a.val - b.val) (subSign a b)
  mul a b := withSign (a.val * b.val) (a.sign ^^ b.sign)
  div := div
  ofInt n := num (Scalar.ofInt n)
  lt a b := Scalar.lt a.val b.val
  le a b := Scalar.le a.val b.val
  beq a b := Scalar.beq a.val b.val
  sqrt a := withSign (Scalar.sqrt a.val) a.sign
  floor a := withSign (Scalar.floor a.val) a.sign
  toIndex a := Scalar.toIndex a.val
  eps := num Scalar.eps

end Z
end Verif
