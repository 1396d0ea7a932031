import Verif.Scalar
/-
Model of include/trial/online/window/{moment,comoment,regression}.hpp and detail/*.ipp.
Paths in comments are relative to /repo/include/trial/online.

`circular::array<T, N>` comes from the external library trial.circular, whose sources are not in
/repo (external/trial.circular is an empty submodule).  It is modelled by its documented behaviour: a
bounded queue of at most `N` elements whose `push_back` drops the oldest element when full.  This is an
assumption of the trusted base.
-/
namespace Verif.Window
open Scalar

variable {w N : Nat} {α : Type} [Scalar α]

/-- Contents of `circular::array<β, N>`, oldest element first (external library, see above). -/
structure Ring (N : Nat) (β : Type) where
  items : List β

namespace Ring
variable {β : Type}
/-- Default constructor: empty. -/
def init : Ring N β := ⟨[]⟩
/-- `clear()`. -/
def clear (_ : Ring N β) : Ring N β := ⟨[]⟩
/-- `size()`. -/
def size (r : Ring N β) : Nat := r.items.length
/-- `capacity()`. -/
def capacity (_ : Ring N β) : Nat := N
/-- `empty()`. -/
def empty (r : Ring N β) : Bool := r.items.length == 0
/-- `full()`. -/
def full (r : Ring N β) : Bool := r.items.length == N
/-- `front()`: the oldest element; undefined (`none`) when empty. -/
def front (r : Ring N β) : Option β := r.items.head?
/-- `push_back(x)`: drops the oldest element when full. -/
def pushBack (r : Ring N β) (x : β) : Ring N β :=
  ⟨if r.full then r.items.tail ++ [x] else r.items ++ [x]⟩
end Ring

/-! ### Mean -/

/-- window/moment.hpp:52-56. -/
structure Mean (N : Nat) (α : Type) where
  window : Ring N α
  mean : α

namespace Mean

/-- window/moment.hpp:40, 54-55. -/
def init : Mean N α := { window := Ring.init, mean := ofNat 0 }

/-- window/detail/moment.ipp:25-31 (the `assert` holds by the type). -/
def capacity (s : Mean N α) : Nat := s.window.capacity

/-- window/detail/moment.ipp:33-38. -/
def clear (s : Mean N α) : Mean N α := { mean := ofNat 0, window := s.window.clear }

/-- window/detail/moment.ipp:40-44. -/
def empty (s : Mean N α) : Bool := s.window.empty

/-- window/detail/moment.ipp:46-50. -/
def size (s : Mean N α) : Nat := s.window.size

/-- window/detail/moment.ipp:52-56. -/
def full (s : Mean N α) : Bool := s.window.full

/-- window/detail/moment.ipp:58-62. -/
def getMean (s : Mean N α) : α := s.mean

/-- window/detail/moment.ipp:64-76.  `window.front()` on an empty window is undefined behaviour: the
outcome is `none`.  `size() + 1 ≤ N` here, so `size_t` does not wrap and sizes are `Nat`. -/
def push (s : Mean N α) (input : α) : Option (Mean N α) :=
  if s.full then
    match s.window.front with
    | none => none
    | some front =>
      some { mean := s.mean + (input - front) / ofNat s.size
             window := s.window.pushBack input }
  else
    some { mean := s.mean + (input - s.mean) / ofNat (s.size + 1)
           window := s.window.pushBack input }

/-- The state after a history of calls on a new filter; `none` if undefined behaviour occurred. -/
def run (ops : List (Op α)) : Option (Mean N α) :=
  runOps (some init) (fun s x => s.bind (push · x)) (Option.map clear) ops

end Mean

/-! ### Mean with variance -/

/-- window/moment.hpp:59-92. -/
structure Variance (N : Nat) (α : Type) where
  super : Mean N α
  sumVariance : α

namespace Variance

/-- window/detail/moment.ipp:82-86 and window/moment.hpp:90. -/
def init : Variance N α := { super := Mean.init, sumVariance := ofNat 0 }

/-- window/detail/moment.ipp:88-93. -/
def clear (s : Variance N α) : Variance N α := { super := s.super.clear, sumVariance := ofNat 0 }

/-- window/moment.hpp:76. -/
def capacity (s : Variance N α) : Nat := s.super.capacity
/-- window/moment.hpp:77. -/
def empty (s : Variance N α) : Bool := s.super.empty
/-- window/moment.hpp:78. -/
def full (s : Variance N α) : Bool := s.super.full
/-- window/moment.hpp:79. -/
def getMean (s : Variance N α) : α := s.super.getMean
/-- window/moment.hpp:80. -/
def size (s : Variance N α) : Nat := s.super.size

/-- window/detail/moment.ipp:136-140; `mean` is the value of `super::mean()` at the call. -/
def delta (mean input oldMean : α) : α := (input - oldMean) * (input - mean)

/-- window/detail/moment.ipp:95-113.  `size()` on line 102 is read before `push_back`. -/
def push (s : Variance N α) (input : α) : Option (Variance N α) :=
  let oldMean := s.super.getMean
  if s.super.full then
    match s.super.window.front with
    | none => none
    | some oldInput =>
      let mean := s.super.mean + (input - oldInput) / ofNat s.size
      some { super := { mean := mean, window := s.super.window.pushBack input }
             sumVariance := s.sumVariance + delta mean input oldMean - delta mean oldInput oldMean }
  else
    let mean := s.super.mean + (input - s.super.mean) / ofNat (s.size + 1)
    some { super := { mean := mean, window := s.super.window.pushBack input }
           sumVariance := s.sumVariance + delta mean input oldMean }

/-- window/detail/moment.ipp:115-123. -/
def variance (s : Variance N α) : α :=
  let count := s.size
  if count > 0 then Scalar.max (ofNat 0) (s.sumVariance / ofNat count) else ofNat 0

/-- window/detail/moment.ipp:125-134. -/
def unbiasedVariance (s : Variance N α) : α :=
  let count := s.size
  if count > 1 then Scalar.max (ofNat 0) (s.sumVariance / ofNat (count - 1)) else ofNat 0

/-- The state after a history of calls on a new filter; `none` if undefined behaviour occurred. -/
def run (ops : List (Op α)) : Option (Variance N α) :=
  runOps (some init) (fun s x => s.bind (push · x)) (Option.map clear) ops

end Variance

/-! ### Covariance -/

/-- window/comoment.hpp:48-55. -/
structure Comoment (W : Nat) (α : Type) where
  window : Ring W (α × α)
  sumX : α
  sumY : α
  sumXY : α

namespace Comoment
variable {W : Nat}

/-- window/comoment.hpp:36, 52-54. -/
def init : Comoment W α :=
  { window := Ring.init, sumX := ofNat 0, sumY := ofNat 0, sumXY := ofNat 0 }

/-- window/detail/comoment.ipp:18-22. -/
def size (s : Comoment W α) : Nat := s.window.size

/-- window/detail/comoment.ipp:24-29. -/
def clear (s : Comoment W α) : Comoment W α :=
  { window := s.window.clear, sumX := ofNat 0, sumY := ofNat 0, sumXY := ofNat 0 }

/-- window/detail/comoment.ipp:31-49. -/
def push (s : Comoment W α) (p : α × α) : Option (Comoment W α) :=
  let x := p.1
  let y := p.2
  if s.window.full then
    match s.window.front with
    | none => none
    | some front =>
      some { sumX := s.sumX + (x - front.1)
             sumY := s.sumY + (y - front.2)
             sumXY := s.sumXY + (x * y - front.1 * front.2)
             window := s.window.pushBack (x, y) }
  else
    some { sumX := s.sumX + x
           sumY := s.sumY + y
           sumXY := s.sumXY + x * y
           window := s.window.pushBack (x, y) }

/-- window/detail/comoment.ipp:51-55. -/
def cosum (s : Comoment W α) : α := s.sumXY - s.sumX * s.sumY / ofNat s.size

/-- window/detail/comoment.ipp:57-63. -/
def variance (s : Comoment W α) : α :=
  if s.size > 0 then s.cosum / ofNat s.size else ofNat 0

/-- window/detail/comoment.ipp:65-71. -/
def unbiasedVariance (s : Comoment W α) : α :=
  if s.size > 1 then s.cosum / ofNat (s.size - 1) else ofNat 0

/-- The state after a history of calls on a new filter; `none` if undefined behaviour occurred. -/
def run (ops : List (Op (α × α))) : Option (Comoment W α) :=
  runOps (some init) (fun s x => s.bind (push · x)) (Option.map clear) ops

end Comoment

/-! ### Regression -/

/-- window/regression.hpp:26-61. -/
structure Regression (W : Nat) (α : Type) where
  covariance : Comoment W α
  xMoment : Variance W α

namespace Regression
variable {W : Nat}

/-- window/regression.hpp:26-61, implicit default constructor. -/
def init : Regression W α := { covariance := Comoment.init, xMoment := Variance.init }

/-- window/detail/regression.ipp:18-23. -/
def clear (s : Regression W α) : Regression W α :=
  { covariance := s.covariance.clear, xMoment := s.xMoment.clear }

/-- window/detail/regression.ipp:25-29. -/
def size (s : Regression W α) : Nat := s.covariance.size

/-- window/detail/regression.ipp:31-36. -/
def push (s : Regression W α) (p : α × α) : Option (Regression W α) :=
  match s.covariance.push p, s.xMoment.push p.1 with
  | some c, some x => some { covariance := c, xMoment := x }
  | _, _ => none

/-- window/detail/regression.ipp:45-52. -/
def slope (s : Regression W α) : α :=
  let divisor := s.xMoment.variance
  if beq divisor (ofNat 0) then ofNat 0 else s.covariance.variance / divisor

/-- window/detail/regression.ipp:38-43 (`at`). -/
def at' (s : Regression W α) (position : α) : α :=
  let yMean := s.covariance.sumY / ofNat s.covariance.size
  yMean - s.slope * (s.xMoment.getMean - position)

/-- The state after a history of calls on a new filter; `none` if undefined behaviour occurred. -/
def run (ops : List (Op (α × α))) : Option (Regression W α) :=
  runOps (some init) (fun s x => s.bind (push · x)) (Option.map clear) ops

end Regression
/-! ### moment::arithmetic (deprecated) -/

/-- moment/arithmetic.hpp:27-28, an alias. -/
abbrev Arithmetic (N : Nat) (α : Type) := Mean N α
/-- moment/arithmetic.hpp:30-31, an alias. -/
abbrev ArithmeticVariance (N : Nat) (α : Type) := Variance N α

end Verif.Window
