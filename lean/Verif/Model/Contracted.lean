import Verif.Ext
import Verif.Model.Cumulative
import Verif.Model.Window
/-
The cumulative variance and covariance and the window covariance as compiled with contraction of floating-point expressions: C++
([expr.pre]/6: operands and results of floating expressions may have more precision than the type requires) lets
the compiler evaluate `a * b + c` with one rounding, and GCC does so by default where the target has such an
instruction (`-ffp-contract=fast`).  The statements with a product and a sum are

  cumulative/detail/moment.ipp:91   `sum.variance += diff * (input - mean)`
  cumulative/detail/comoment.ipp:37 `center += (x - mean x) * (y - mean y)`
  window/detail/comoment.ipp:40     `sum.xy += x * y - front_x * front_y`
  window/detail/comoment.ipp:46     `sum.xy += x * y`

The compiler may contract one instantiation or inlined copy and not another, so every push says whether it is
contracted.  Nothing else of `push` can be contracted (cumulative/detail/moment.ipp:60 divides).
-/
namespace Verif

/-- Arithmetic with a fused multiply-add. -/
class Fused (α : Type) extends Scalar α where
  /-- `a * b + c` with one rounding -/
  fma : α → α → α → α
  /-- `a * b - c` with one rounding -/
  fms : α → α → α → α
  /-- `c - a * b` with one rounding -/
  fnma : α → α → α → α

/-- IEEE 754 fusedMultiplyAdd: the product is not rounded and does not overflow. -/
noncomputable def X.fma {F : Fmt} : X F → X F → X F → X F
  | .fin a, .fin b, .fin c => X.round (a * b + c)
  | .fin _, .fin _, c => c
  | a, b, c => X.add c (X.mul a b)

noncomputable instance {F : Fmt} : Fused (X F) where
  fma := X.fma
  fms a b c := X.fma a b c.neg
  fnma a b c := X.fma a.neg b c

namespace Contracted
open Scalar

variable {w : Nat} {α : Type} [Fused α]

/-- `sum + a * b`, contracted or not. -/
def addMul (fused : Bool) (sum a b : α) : α := if fused then Fused.fma a b sum else sum + a * b

/-- cumulative/detail/moment.ipp:86-92. -/
def Variance.push (s : Cumulative.Variance w α) (i : Bool × α) : Cumulative.Variance w α :=
  let super := s.super.push i.2
  { super := super
    sumVariance := addMul i.1 s.sumVariance (i.2 - s.super.getMean) (i.2 - super.getMean) }

/-- The state after a history of calls on a new filter. -/
def Variance.run (ops : List (Op (Bool × α))) : Cumulative.Variance w α :=
  runOps Cumulative.Variance.init Variance.push Cumulative.Variance.clear ops

/-- cumulative/detail/comoment.ipp:32-39. -/
def Comoment.push (s : Cumulative.Comoment w α) (i : Bool × (α × α)) : Cumulative.Comoment w α :=
  let xCenter := s.xCenter.push i.2.1
  { xCenter := xCenter
    center := addMul i.1 s.center (i.2.1 - xCenter.getMean) (i.2.2 - s.yCenter.getMean)
    yCenter := s.yCenter.push i.2.2 }

/-- The state after a history of calls on a new filter. -/
def Comoment.run (ops : List (Op (Bool × (α × α)))) : Cumulative.Comoment w α :=
  runOps Cumulative.Comoment.init Comoment.push Cumulative.Comoment.clear ops

/-! ### Window covariance -/

/-- What the compiler does with `a * b - c * d`: two roundings of products, or one of the two products is not
rounded. -/
inductive Fusion where
  | none
  | left
  | right
  deriving DecidableEq, Repr

/-- `a * b - c * d`. -/
def mulSubMul (m : Fusion) (a b c d : α) : α :=
  match m with
  | .none => a * b - c * d
  | .left => Fused.fms a b (c * d)
  | .right => Fused.fnma c d (a * b)

/-- window/detail/comoment.ipp:31-49.  `i.1` is the contraction of line 40, the Boolean in it that of line 46.  Nothing else
can be contracted (line 54 divides). -/
def WindowComoment.push {W : Nat} (s : Window.Comoment W α) (i : (Fusion × Bool) × (α × α)) : Option (Window.Comoment W α) :=
  let x := i.2.1
  let y := i.2.2
  if s.window.full then
    match s.window.front with
    | none => none
    | some front =>
      some { sumX := s.sumX + (x - front.1)
             sumY := s.sumY + (y - front.2)
             sumXY := s.sumXY + mulSubMul i.1.1 x y front.1 front.2
             window := s.window.pushBack (x, y) }
  else
    some { sumX := s.sumX + x
           sumY := s.sumY + y
           sumXY := addMul i.1.2 s.sumXY x y
           window := s.window.pushBack (x, y) }

/-- The state after a history of calls on a new filter; `none` if undefined behaviour occurred. -/
def WindowComoment.run {W : Nat} (ops : List (Op ((Fusion × Bool) × (α × α)))) : Option (Window.Comoment W α) :=
  runOps (some Window.Comoment.init) (fun s x => s.bind (WindowComoment.push · x)) (Option.map Window.Comoment.clear) ops

end Contracted
end Verif
