import Verif.Model.CInt
import Verif.Model.Impulse
import Verif.Format
/-
The filters that accept integer value types, for every signed or unsigned integer type `T`.

No static_assert excludes integers from cumulative::basic_moment (cumulative/moment.hpp:35-36 requires an arithmetic
type that is not `bool`, for all four variants), cumulative::basic_comoment (cumulative/comoment.hpp:31-32),
window::basic_moment with a mean (window/moment.hpp:36-38), interim::basic_moment with a mean
(interim/detail/moment.ipp:27-30), impulse::finite (impulse/finite.hpp:35) and impulse::infinite (impulse/infinite.hpp:35).
The expressions are written with the operations of `Verif/Model/CInt.lean`, in the types in which C++ evaluates them.
Paths in comments are relative to /repo/include/trial/online.
-/
namespace Verif.IntT
open CInt

variable (P : Platform) (T : Ty)

/-! ### cumulative::basic_moment<T, with::mean> -/

/-- cumulative/moment.hpp:71-75. -/
structure Mean where
  mean : Int
  count : Int
  deriving DecidableEq, Repr

namespace Mean
/-- cumulative/moment.hpp:73-74. -/
def init : Mean := ⟨0, 0⟩

/-- cumulative/detail/moment.ipp:56-61. -/
def push (s : Mean) (input : Int) : Option Mean := do
  let count := P.size.conv (s.count + 1)
  let diff ← P.sub ⟨T, input⟩ ⟨T, s.mean⟩
  let step ← P.div diff (cast T (P.sz count))
  let sum ← P.add ⟨T, s.mean⟩ step
  return ⟨T.conv sum.val, count⟩

/-- cumulative/detail/moment.ipp:50-54. -/
def unbiasedMean (s : Mean) : Option Int := do
  let total ← P.mul ⟨T, s.mean⟩ (P.sz s.count)
  let n1 ← P.sub (P.sz s.count) (P.lit 1)
  let r ← P.div total (cast T n1)
  return T.conv r.val

/-- Pushing a list of values to a new filter. -/
def run (xs : List Int) : Option Mean := xs.foldlM (push P T) init
end Mean

/-! ### cumulative::basic_moment<T, with::variance> -/

/-- cumulative/moment.hpp:117-120. -/
structure Variance where
  base : Mean
  variance : Int
  deriving DecidableEq, Repr

namespace Variance
/-- cumulative/moment.hpp:119. -/
def init : Variance := ⟨Mean.init, 0⟩

/-- cumulative/detail/moment.ipp:86-92. -/
def push (s : Variance) (input : Int) : Option Variance := do
  let diff ← P.sub ⟨T, input⟩ ⟨T, s.base.mean⟩
  let base ← s.base.push P T input
  let diff' ← P.sub ⟨T, input⟩ ⟨T, base.mean⟩
  let prod ← P.mul diff diff'
  let sum ← P.add ⟨T, s.variance⟩ prod
  return ⟨base, T.conv sum.val⟩

/-- cumulative/detail/moment.ipp:74-78. -/
def getVariance (s : Variance) : Option Int := do
  let r ← P.div ⟨T, s.variance⟩ (cast T (P.sz s.base.count))
  return T.conv r.val

/-- cumulative/detail/moment.ipp:80-84. -/
def unbiasedVariance (s : Variance) : Option Int := do
  let n1 ← P.sub (P.sz s.base.count) (P.lit 1)
  let r ← P.div ⟨T, s.variance⟩ (cast T n1)
  return T.conv r.val

/-- Pushing a list of values to a new filter. -/
def run (xs : List Int) : Option Variance := xs.foldlM (push P T) init
end Variance

/-! ### cumulative::basic_moment<T, with::skewness> -/

/-- `double`, the result type of `std::sqrt` of an integer. -/
abbrev Dbl := X binary64

/-- Conversion of a `double` to `T`: truncates; undefined unless the result is a value of `T`. -/
noncomputable def ofDouble (T : Ty) : Dbl → Option Int
  | X.fin r =>
    let z := if r < 0 then ⌈r⌉ else ⌊r⌋
    if T.Has z then some z else none
  | _ => none

/-- cumulative/moment.hpp:149-152. -/
structure Skewness where
  base : Variance
  skewness : Int
  deriving DecidableEq, Repr

namespace Skewness
/-- cumulative/moment.hpp:151. -/
def init : Skewness := ⟨Variance.init, 0⟩

/-- cumulative/detail/moment.ipp:125-138. -/
def push (s : Skewness) (input : Int) : Option Skewness := do
  let count := P.sz s.base.base.count
  let delta ← P.sub ⟨T, input⟩ ⟨T, s.base.base.mean⟩
  let n ← P.add count (P.lit 1)
  let deltaOverN ← P.div delta n
  let a ← P.mul delta deltaOverN
  let n1 ← P.sub n (P.lit 1)
  let a ← P.mul a n1
  let n2 ← P.sub n (P.lit 2)
  let a ← P.mul a n2
  let v ← P.mul (P.lit 3) ⟨T, s.base.variance⟩
  let a ← P.sub a v
  let a ← P.mul a deltaOverN
  let sum ← P.add ⟨T, s.skewness⟩ a
  let base ← s.base.push P T input
  return ⟨base, T.conv sum.val⟩

/-- cumulative/detail/moment.ipp:105-111; `std::numeric_limits<T>::epsilon()` is 0 for integer `T`. -/
noncomputable def getSkewness (s : Skewness) : Option Int :=
  if s.skewness < 0 then some 0
  else
    let root : Dbl := Scalar.sqrt (Scalar.ofInt s.base.base.count)
    let num := root * Scalar.ofInt s.skewness
    let den := Scalar.sqrt (Scalar.ofInt s.base.variance) * Scalar.ofInt s.base.variance
    ofDouble T (num / den)

/-- cumulative/detail/moment.ipp:113-123. -/
noncomputable def unbiasedSkewness (s : Skewness) : Option Int := do
  let count := P.sz s.base.base.count
  if count.val < 2 then return 0
  if s.skewness < 0 then return 0
  let sk ← s.getSkewness T
  let n1 ← P.sub count (P.lit 1)
  let prod ← P.mul count n1
  let n2 ← P.sub count (P.lit 2)
  let root : Dbl := Scalar.sqrt (Scalar.ofInt prod.val)
  ofDouble T (Scalar.ofInt sk * root / Scalar.ofInt (cast T n2).val)

/-- Pushing a list of values to a new filter. -/
def run (xs : List Int) : Option Skewness := xs.foldlM (push P T) init
end Skewness

/-! ### cumulative::basic_moment<T, with::kurtosis> -/

/-- cumulative/moment.hpp:183-186. -/
structure Kurtosis where
  base : Skewness
  kurtosis : Int
  deriving DecidableEq, Repr

namespace Kurtosis
/-- cumulative/moment.hpp:185. -/
def init : Kurtosis := ⟨Skewness.init, 0⟩

/-- cumulative/detail/moment.ipp:170-185. -/
def push (s : Kurtosis) (input : Int) : Option Kurtosis := do
  let count := P.sz s.base.base.base.count
  let delta ← P.sub ⟨T, input⟩ ⟨T, s.base.base.base.mean⟩
  let n ← P.add count (P.lit 1)
  let deltaOverN ← P.div delta n
  let a ← P.mul delta deltaOverN
  let n1 ← P.sub n (P.lit 1)
  let a ← P.mul a n1
  let n3 ← P.sub n (P.lit 3)
  let c ← P.mul n n3
  let c ← P.add c (P.lit 3)
  let expr ← P.mul a c
  let varExpr ← P.mul (cast T (P.lit 6)) ⟨T, s.base.base.variance⟩
  let skewExpr ← P.mul (cast T (P.lit 4)) ⟨T, s.base.skewness⟩
  let e ← P.add expr varExpr
  let e ← P.mul e deltaOverN
  let e ← P.sub e skewExpr
  let e ← P.mul e deltaOverN
  let sum ← P.add ⟨T, s.kurtosis⟩ e
  let base ← s.base.push P T input
  return ⟨base, T.conv sum.val⟩

/-- cumulative/detail/moment.ipp:150-156; `std::numeric_limits<T>::epsilon()` is 0 for integer `T`. -/
def getKurtosis (s : Kurtosis) : Option Int := do
  if s.kurtosis < 0 then return 0
  let num ← P.mul (P.sz s.base.base.base.count) ⟨T, s.kurtosis⟩
  let den ← P.mul ⟨T, s.base.base.variance⟩ ⟨T, s.base.base.variance⟩
  let r ← P.div num den
  return T.conv r.val

/-- cumulative/detail/moment.ipp:158-168. -/
def unbiasedKurtosis (s : Kurtosis) : Option Int := do
  let count := P.sz s.base.base.base.count
  if count.val < 4 then return 0
  if s.kurtosis < 0 then return 0
  let n1 ← P.sub count (P.lit 1)
  let n2 ← P.sub count (P.lit 2)
  let n3 ← P.sub count (P.lit 3)
  let d ← P.mul n2 n3
  let f ← P.div n1 (cast T d)
  let np ← P.add count (P.lit 1)
  let k ← s.getKurtosis P T
  let a ← P.mul np ⟨T, k⟩
  let b ← P.mul (cast T (P.lit 3)) n1
  let g ← P.sub a b
  let h ← P.mul f g
  let r ← P.add (cast T (P.lit 3)) h
  return T.conv r.val

/-- Pushing a list of values to a new filter. -/
def run (xs : List Int) : Option Kurtosis := xs.foldlM (push P T) init
end Kurtosis

/-! ### cumulative::basic_comoment<T, with::variance> -/

/-- cumulative/comoment.hpp:46-48. -/
structure Comoment where
  xCenter : Mean
  yCenter : Mean
  center : Int
  deriving DecidableEq, Repr

namespace Comoment
/-- cumulative/comoment.hpp:46-48. -/
def init : Comoment := ⟨Mean.init, Mean.init, 0⟩

/-- cumulative/detail/comoment.ipp:32-39. -/
def push (s : Comoment) (pt : Int × Int) : Option Comoment := do
  let xc ← s.xCenter.push P T pt.1
  let dx ← P.sub ⟨T, pt.1⟩ ⟨T, xc.mean⟩
  let dy ← P.sub ⟨T, pt.2⟩ ⟨T, s.yCenter.mean⟩
  let prod ← P.mul dx dy
  let sum ← P.add ⟨T, s.center⟩ prod
  let yc ← s.yCenter.push P T pt.2
  return ⟨xc, yc, T.conv sum.val⟩

/-- cumulative/detail/comoment.ipp:49-55. -/
def variance (s : Comoment) : Option Int :=
  if s.xCenter.count > 0 then do
    let r ← P.div ⟨T, s.center⟩ (P.sz s.xCenter.count)
    return T.conv r.val
  else some 0

/-- cumulative/detail/comoment.ipp:57-64. -/
def unbiasedVariance (s : Comoment) : Option Int :=
  if s.xCenter.count > 1 then do
    let n1 ← P.sub (P.sz s.xCenter.count) (P.lit 1)
    let r ← P.div ⟨T, s.center⟩ n1
    return T.conv r.val
  else some 0

/-- Pushing a list of pairs to a new filter. -/
def run (xs : List (Int × Int)) : Option Comoment := xs.foldlM (push P T) init
end Comoment

/-! ### window::basic_moment<T, N, with::mean> -/

/-- window/moment.hpp:52-56; the ring buffer as the list of its elements, oldest first. -/
structure WMean where
  window : List Int
  mean : Int
  deriving DecidableEq, Repr

namespace WMean
/-- window/moment.hpp:54-55. -/
def init : WMean := ⟨[], 0⟩

/-- window/detail/moment.ipp:64-76. -/
def push (N : Nat) (s : WMean) (input : Int) : Option WMean := do
  if s.window.length = N then
    let front ← s.window.head?
    let diff ← P.sub ⟨T, input⟩ ⟨T, front⟩
    let step ← P.div diff (cast T (P.sz s.window.length))
    let sum ← P.add ⟨T, s.mean⟩ step
    return ⟨s.window.tail ++ [input], T.conv sum.val⟩
  else
    let n ← P.add (P.sz s.window.length) (P.lit 1)
    let diff ← P.sub ⟨T, input⟩ ⟨T, s.mean⟩
    let step ← P.div diff (cast T n)
    let sum ← P.add ⟨T, s.mean⟩ step
    return ⟨s.window ++ [input], T.conv sum.val⟩

/-- Pushing a list of values to a new filter. -/
def run (N : Nat) (xs : List Int) : Option WMean := xs.foldlM (push P T N) init
end WMean

/-! ### interim::basic_moment<T, W, with::mean> -/

/-- interim/detail/moment.ipp:47-49. -/
structure IMean where
  active : Mean
  passive : Mean
  deriving DecidableEq, Repr

namespace IMean
/-- interim/detail/moment.ipp:47-49. -/
def init : IMean := ⟨Mean.init, Mean.init⟩

/-- interim/detail/moment.ipp:59-69. -/
def push (W : Nat) (s : IMean) (input : Int) : Option IMean := do
  let s := if s.active.count ≥ W then ⟨Mean.init, s.active⟩ else s
  let active ← s.active.push P T input
  return { s with active := active }

/-- interim/detail/moment.ipp:95-105. -/
def mean (W : Nat) (s : IMean) : Option Int :=
  if s.passive.count = 0 then some s.active.mean
  else do
    let sz := P.sz s.active.count
    let w := P.sz W
    let d ← P.sub w sz
    let a ← P.mul ⟨T, s.passive.mean⟩ d
    let t ← P.mul (P.lit 2) sz
    let b ← P.mul ⟨T, s.active.mean⟩ t
    let sum ← P.add a b
    let n ← P.add w sz
    let r ← P.div sum (cast T n)
    return T.conv r.val

/-- Pushing a list of values to a new filter. -/
def run (W : Nat) (xs : List Int) : Option IMean := xs.foldlM (push P T W) init
end IMean

/-! ### impulse::finite<T>, impulse::infinite<T> -/

/-- `std::inner_product` with an initial value of type `T`: `acc = acc + x * c`, converted to `T` in each step. -/
def innerProduct (acc : Int) : List Int → List Int → Option Int
  | [], _ => some acc
  | _ :: _, [] => none
  | x :: xs, c :: cs => do
    let prod ← P.mul ⟨T, x⟩ ⟨T, c⟩
    let sum ← P.add ⟨T, acc⟩ prod
    innerProduct (T.conv sum.val) xs cs

/-- impulse/finite.hpp:51-54. -/
structure Finite where
  input : Impulse.Deque Int
  output : Int
  coefficients : List Int

namespace Finite
/-- impulse/detail/finite.ipp:21-37. -/
def init (coefficients : List Int) : Finite := ⟨Impulse.Deque.init coefficients.length, 0, coefficients⟩

/-- impulse/detail/finite.ipp:45-49. -/
def clear (s : Finite) : Finite := { s with input := s.input.clear }

/-- impulse/detail/finite.ipp:69-74. -/
def push (s : Finite) (x : Int) : Option Finite := do
  let input := s.input.pushFront x
  let output ← innerProduct P T 0 input.items s.coefficients
  return { s with input := input, output := output }

/-- The state after a history of calls on a new filter. -/
def run (coefficients : List Int) (ops : List (Op Int)) : Option Finite :=
  runOps (some (init coefficients)) (fun s x => s.bind (push P T · x)) (Option.map clear) ops
end Finite

/-- impulse/infinite.hpp:53-63. -/
structure Infinite where
  inputWindow : Impulse.Deque Int
  inputCoefficients : List Int
  outputWindow : Impulse.Deque Int
  outputScale : Int
  outputCoefficients : List Int

namespace Infinite
/-- impulse/detail/infinite.ipp:21-39. -/
def init (inputCoefficients outputCoefficients : List Int) (scale : Int) : Infinite :=
  { inputWindow := Impulse.Deque.init inputCoefficients.length, inputCoefficients := inputCoefficients
    outputWindow := Impulse.Deque.init outputCoefficients.length, outputScale := scale
    outputCoefficients := outputCoefficients }

/-- impulse/detail/infinite.ipp:41-47. -/
def clear (s : Infinite) : Infinite :=
  { s with inputWindow := s.inputWindow.clear, outputWindow := s.outputWindow.clear }

/-- impulse/detail/infinite.ipp:55-61. -/
def value (s : Infinite) : Int := s.outputWindow.items.headD 0

/-- impulse/detail/infinite.ipp:63-70. -/
def push (s : Infinite) (x : Int) : Option Infinite := do
  let inputWindow := s.inputWindow.pushFront x
  let feedforward ← innerProduct P T 0 inputWindow.items s.inputCoefficients
  let feedback ← innerProduct P T 0 s.outputWindow.items s.outputCoefficients
  let diff ← P.sub ⟨T, feedforward⟩ ⟨T, feedback⟩
  let r ← P.div diff ⟨T, s.outputScale⟩
  return { s with inputWindow := inputWindow, outputWindow := s.outputWindow.pushFront (T.conv r.val) }

/-- The state after a history of calls on a new filter. -/
def run (inputCoefficients outputCoefficients : List Int) (scale : Int) (ops : List (Op Int)) : Option Infinite :=
  runOps (some (init inputCoefficients outputCoefficients scale)) (fun s x => s.bind (push P T · x)) (Option.map clear) ops
end Infinite

end Verif.IntT
