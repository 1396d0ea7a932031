/-
Integer value types.

cumulative::basic_moment<T, with::mean>, cumulative::basic_comoment, window::basic_moment<T, N, with::mean>
accept every arithmetic `T` except `bool` (static_asserts in cumulative/moment.hpp:35-36,
cumulative/comoment.hpp:31-32, window/moment.hpp:37-38).  For integer `T` the same source text means
something else: division truncates, signed overflow is undefined, and mixed expressions with `size_t` are
evaluated in `size_t`.  This file models those functions for `T` a signed integer type of `b` bits with
`int` having `ib` bits and `size_t` having `w` bits.  Undefined behaviour is the outcome `none`.
Paths in comments are relative to /repo/include/trial/online.
-/
namespace Verif.Integer

/-- Value of the signed `b`-bit type obtained by converting the integer `z` (modulo `2^b`). -/
def wrapS (b : Nat) (z : Int) : Int := (BitVec.ofInt b z).toInt

/-- `z` is a value of the signed `b`-bit type. -/
def InRange (b : Nat) (z : Int) : Prop := -(2 : Int) ^ (b - 1) ≤ z ∧ z < (2 : Int) ^ (b - 1)

instance (b z) : Decidable (InRange b z) := by unfold InRange; infer_instance

/-- Result of a signed `b`-bit operation whose exact result is `z`: overflow is undefined. -/
def checked (b : Nat) (z : Int) : Option Int := if InRange b z then some z else none

/-- Signed division in a `b`-bit type: truncates; division by zero (and overflow) is undefined. -/
def divS (b : Nat) (x y : Int) : Option Int := if y = 0 then none else checked b (x.tdiv y)

/-- Width in which arithmetic on `T` is carried out (integral promotion): `max b ib`. -/
def promoted (b ib : Nat) : Nat := max b ib

/-! ### cumulative::basic_moment<T, with::mean> -/

/-- cumulative/moment.hpp:71-75; `count` is `size_t`. -/
structure Mean (w : Nat) where
  mean : Int
  count : BitVec w

namespace Mean
variable {w : Nat}
/-- cumulative/moment.hpp:73-74. -/
def init : Mean w := ⟨0, 0⟩

/-- cumulative/detail/moment.ipp:56-61 for integer `T` of `b` bits: `value_type(member.count)` converts
modulo `2^b`; the arithmetic is done in the promoted type; the compound assignment converts back. -/
def push (b ib : Nat) (s : Mean w) (input : Int) : Option (Mean w) := do
  let count := s.count + 1
  let p := promoted b ib
  let diff ← checked p (input - s.mean)
  let step ← divS p diff (wrapS b count.toNat)
  let sum ← checked p (s.mean + step)
  return { mean := wrapS b sum, count := count }

/-- Pushing a list of values to a new filter. -/
def run (b ib : Nat) (xs : List Int) : Option (Mean w) := xs.foldlM (push b ib) init

/-- cumulative/detail/moment.ipp:50-54 for integer `T` (at most as wide as `size_t`): `mean * count` and
the division are carried out in `size_t` because the second operand is `size_t`; the divisor is first
converted to `T`, then to `size_t`; the result is converted to `T`. -/
def unbiasedMean (b : Nat) (s : Mean w) : Option Int :=
  let divisor := BitVec.ofInt w (wrapS b (s.count - 1).toNat)
  if divisor = 0 then none
  else some (wrapS b ((BitVec.ofInt w s.mean * s.count / divisor).toNat))
end Mean

/-! ### window::basic_moment<T, N, with::mean> -/

/-- window/moment.hpp:52-56; the ring buffer as the list of its elements, oldest first. -/
structure WMean where
  window : List Int
  mean : Int

namespace WMean
/-- window/moment.hpp:40, 54-55. -/
def init : WMean := ⟨[], 0⟩

/-- window/detail/moment.ipp:64-76 for integer `T`. -/
def push (b ib N : Nat) (s : WMean) (input : Int) : Option WMean := do
  let p := promoted b ib
  if s.window.length = N then
    let front ← s.window.head?
    let diff ← checked p (input - front)
    let step ← divS p diff (wrapS b s.window.length)
    let sum ← checked p (s.mean + step)
    return { mean := wrapS b sum, window := s.window.tail ++ [input] }
  else
    let diff ← checked p (input - s.mean)
    let step ← divS p diff (wrapS b (s.window.length + 1))
    let sum ← checked p (s.mean + step)
    return { mean := wrapS b sum, window := s.window ++ [input] }

/-- Pushing a list of values to a new filter. -/
def run (b ib N : Nat) (xs : List Int) : Option WMean := xs.foldlM (push b ib N) init
end WMean

/-! ### cumulative::basic_comoment<T, with::variance> -/

/-- cumulative/comoment.hpp:45-48. -/
structure Comoment (w : Nat) where
  xCenter : Mean w
  yCenter : Mean w
  center : Int

namespace Comoment
variable {w : Nat}
/-- cumulative/comoment.hpp:46-48. -/
def init : Comoment w := ⟨Mean.init, Mean.init, 0⟩

/-- cumulative/detail/comoment.ipp:32-39 for integer `T`. -/
def push (b ib : Nat) (s : Comoment w) (pt : Int × Int) : Option (Comoment w) := do
  let p := promoted b ib
  let xc ← s.xCenter.push b ib pt.1
  let dx ← checked p (pt.1 - xc.mean)
  let dy ← checked p (pt.2 - s.yCenter.mean)
  let prod ← checked p (dx * dy)
  let sum ← checked p (s.center + prod)
  let yc ← s.yCenter.push b ib pt.2
  return { xCenter := xc, yCenter := yc, center := wrapS b sum }

/-- cumulative/detail/comoment.ipp:49-55 for integer `T` (at most as wide as `size_t`):
`center / size()` is evaluated in `size_t`, so a negative `center` is first converted modulo `2^w`. -/
def variance (b : Nat) (s : Comoment w) : Int :=
  if s.xCenter.count > 0 then wrapS b ((BitVec.ofInt w s.center / s.xCenter.count).toNat) else 0

/-- cumulative/detail/comoment.ipp:57-64 for integer `T`. -/
def unbiasedVariance (b : Nat) (s : Comoment w) : Int :=
  if s.xCenter.count > 1 then wrapS b ((BitVec.ofInt w s.center / (s.xCenter.count - 1)).toNat) else 0

/-- Pushing a list of pairs to a new filter. -/
def run (b ib : Nat) (xs : List (Int × Int)) : Option (Comoment w) := xs.foldlM (push b ib) init
end Comoment

end Verif.Integer
